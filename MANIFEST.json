{
 "claims": [
  {
   "property": "C01",
   "status": "proved",
   "theorems": [
    "Akasa.C01_lookup_sound",
    "Akasa.C01_lookup_complete",
    "Akasa.C01_lookup_once",
    "Akasa.C01_no_panic",
    "Akasa.C01_no_panic_plain"
   ],
   "note": "All histories (plain and shared mixed) for which no call panics; plain histories never panic."
  },
  {
   "property": "C02",
   "status": "proved",
   "theorems": [
    "Akasa.C02_dollar_not_routed",
    "Akasa.C02_literal_dollar_routed",
    "Akasa.C02_dollar_not_retained",
    "Akasa.C02_literal_dollar_retained"
   ],
   "note": "Live routing and retained lookup."
  },
  {
   "property": "C03",
   "status": "proved",
   "theorems": [
    "Akasa.C03_unsubscribe_precise",
    "Akasa.C03_no_leak",
    "Akasa.C03_empty"
   ],
   "note": "No-leak also covers shared subscriptions under NoRejoin (plain histories always satisfy it)."
  },
  {
   "property": "C04",
   "status": "partial",
   "theorems": [
    "Akasa.C04_group_selects_member_partial",
    "Akasa.C04_group_found_partial",
    "Akasa.C04_false"
   ],
   "note": "False of the code in general (stale index entry): C04_false. Proved for histories in which nobody returns to a group they left while it lives on."
  },
  {
   "property": "C05",
   "status": "partial",
   "theorems": [
    "Akasa.C05_leave_precise_partial",
    "Akasa.C05_false"
   ],
   "note": "False of the code in general: a second leave removes another member (C05_false). Proved under NoRejoin."
  },
  {
   "property": "C06",
   "status": "proved",
   "theorems": [
    "Akasa.C06_retained_latest",
    "Akasa.C06_other_topics",
    "Akasa.C06_by_publish"
   ],
   "note": ""
  },
  {
   "property": "C07",
   "status": "proved",
   "theorems": [
    "Akasa.C07_retained_lookup",
    "Akasa.C07_agrees_with_routing"
   ],
   "note": ""
  },
  {
   "property": "C08",
   "status": "proved",
   "theorems": [
    "Akasa.C08_no_leak",
    "Akasa.C08_empty"
   ],
   "note": ""
  },
  {
   "property": "C09",
   "status": "proved",
   "theorems": [
    "Akasa.C09_bounded",
    "Akasa.C09_full_refused",
    "Akasa.C09_room_accepted",
    "Akasa.C68_queue_bounded"
   ],
   "note": "C68_queue_bounded carries the bound to every session of the whole broker."
  },
  {
   "property": "C10",
   "status": "partial",
   "theorems": [
    "Akasa.C10_receive_maximum_v3",
    "Akasa.C10_receive_maximum_partial",
    "Akasa.C10_receive_maximum_no_drops_partial",
    "Akasa.C10_false"
   ],
   "note": "Proved without conditions for messages that cannot expire (MQTT 3); for MQTT 5 proved as long as the pending packet identifiers are distinct. False when identifiers wrap around after 65534 dropped messages (C10_false). C74_window_partial lifts the MQTT 5 part to the whole broker."
  },
  {
   "property": "C11",
   "status": "proved",
   "theorems": [
    "Akasa.C11_dup",
    "Akasa.C11_dup_any"
   ],
   "note": ""
  },
  {
   "property": "C12",
   "status": "proved",
   "theorems": [
    "Akasa.C12_no_publish_after_pubrec",
    "Akasa.C12_released_after_pubrec",
    "Akasa.C12_nothing_after_puback",
    "Akasa.C12_nothing_after_pubcomp"
   ],
   "note": "Pending identifiers distinct (C17) and receive maximum not reduced by a reconnect are hypotheses."
  },
  {
   "property": "C13",
   "status": "proved",
   "theorems": [
    "Akasa.C13_fifo_v3",
    "Akasa.C13_fifo_v5",
    "Akasa.C13_fifo_v5_any_clock",
    "Akasa.C13_pass_order"
   ],
   "note": "MQTT 5: for clocks that do not go back, or for distinct identifiers. C57_fifo_v3, C57_fifo_v5, C68_order_v3 and C68_order_v5 lift it to sessions and to the whole broker."
  },
  {
   "property": "C14",
   "status": "partial",
   "theorems": [
    "Akasa.C14_accepted",
    "Akasa.C14_kept_v3",
    "Akasa.C14_kept_v5_partial",
    "Akasa.C14_kept_once_sent_partial",
    "Akasa.C14_released_kept",
    "Akasa.C14_false"
   ],
   "note": "MQTT 3 in full. MQTT 5: false after a reconnect, an already transmitted message can be dropped as expired (C14_false)."
  },
  {
   "property": "C15",
   "status": "proved",
   "theorems": [
    "Akasa.C15_resent",
    "Akasa.C15_pubrel_resent",
    "Akasa.C15_whole_window",
    "Akasa.C15_not_before_timeout",
    "Akasa.C15_broker"
   ],
   "note": "For every sequence of operations of the queue of a session, and (C15_broker) for every connection of the whole broker that takes up a session."
  },
  {
   "property": "C16",
   "status": "proved",
   "theorems": [
    "Akasa.C16_drain",
    "Akasa.C16_empty"
   ],
   "note": "Pending identifiers distinct (C17) is a hypothesis."
  },
  {
   "property": "C17",
   "status": "partial",
   "theorems": [
    "Akasa.C17_range",
    "Akasa.C17_distinct_no_drops_partial",
    "Akasa.C17_distinct_first_65535_partial",
    "Akasa.C17_false"
   ],
   "note": "False when messages are dropped because the queue is full and the 16 bit counter wraps (C17_false)."
  },
  {
   "property": "C18",
   "status": "proved",
   "theorems": [
    "Akasa.C18_expiry",
    "Akasa.C18_no_expiry",
    "Akasa.C18_expired_never_sent"
   ],
   "note": ""
  },
  {
   "property": "C19",
   "status": "proved",
   "theorems": [
    "Akasa.C19_qos2_at_most_once",
    "Akasa.C68_qos2_once"
   ],
   "note": "For a session alone, and for every session of the whole broker over all its connections."
  },
  {
   "property": "C20",
   "status": "partial",
   "theorems": [
    "Akasa.C20_pubrec_means_routed_partial",
    "Akasa.C20_false"
   ],
   "note": "False of the code: a first QoS 2 PUBLISH with DUP set is acknowledged but not passed on (C20_false). Proved for sessions whose client does not do that."
  },
  {
   "property": "C21",
   "status": "proved",
   "theorems": [
    "Akasa.C21_unreleased_bounded",
    "Akasa.C21_excess_rejected",
    "Akasa.C68_qos2_bounded"
   ],
   "note": ""
  },
  {
   "property": "C22",
   "status": "proved",
   "theorems": [
    "Akasa.C22_no_dollar_publish",
    "Akasa.C22_no_dollar_retained",
    "Akasa.C22_all",
    "Akasa.C22_store"
   ],
   "note": "Direct, by alias (session level), and over all runs of the whole broker including wills: nothing passed on and nothing in the retained store begins with $."
  },
  {
   "property": "C23",
   "status": "proved",
   "theorems": [
    "Akasa.C23_alias_resolves",
    "Akasa.C23_bad_alias_rejected"
   ],
   "note": ""
  },
  {
   "property": "C24",
   "status": "proved",
   "theorems": [
    "Akasa.C24_decodes",
    "Akasa.C24_alias_in_range",
    "Akasa.C24_source"
   ],
   "note": "Messages entering the session have a topic and no alias (C24_source discharges this for routed messages; C75_v5 and C74_alias lift it to the whole broker)."
  },
  {
   "property": "C25",
   "status": "partial",
   "theorems": [
    "Akasa.C25_publish_answered",
    "Akasa.C25_pubrec_answered",
    "Akasa.C25_pubrel_answered",
    "Akasa.C25_pubrel_due",
    "Akasa.C25_reason_partial",
    "Akasa.C25_reason_false"
   ],
   "note": "The reason NoMatchingSubscribers is false of the code for histories in which a client leaves a shared group twice (C25_reason_false); all other parts in full."
  },
  {
   "property": "C26",
   "status": "partial",
   "theorems": [
    "Akasa.C26_receivers_v5_partial",
    "Akasa.C26_plain_v5",
    "Akasa.C26_plain_sound_v5",
    "Akasa.C26_receivers_v3",
    "Akasa.C26_nothing_else",
    "Akasa.C26_shared_false"
   ],
   "note": "Plain subscriptions in full for every history; shared groups for histories in which no client leaves a group twice (false in general: C26_shared_false)."
  },
  {
   "property": "C27",
   "status": "partial",
   "theorems": [
    "Akasa.C27_one_copy_partial",
    "Akasa.C26_plain_v5",
    "Akasa.C26_plain_sound_v5"
   ],
   "note": "The maximum over shared filters is false in general for the same reason as C26."
  },
  {
   "property": "C28",
   "status": "proved",
   "theorems": [
    "Akasa.C28_no_echo_live",
    "Akasa.C28_no_echo_retained"
   ],
   "note": ""
  },
  {
   "property": "C29",
   "status": "proved",
   "theorems": [
    "Akasa.C29_live",
    "Akasa.C29_offline",
    "Akasa.C29_retained"
   ],
   "note": ""
  },
  {
   "property": "C30",
   "status": "proved",
   "theorems": [
    "Akasa.C30_dropped",
    "Akasa.C30_identifiers",
    "Akasa.C30_wire"
   ],
   "note": ""
  },
  {
   "property": "C31",
   "status": "partial",
   "theorems": [
    "Akasa.C31_false",
    "Akasa.C31_first_filter_partial",
    "Akasa.C31_dropped"
   ],
   "note": "False of the code for an MQTT 3 receiver of a message published by an MQTT 5 client: only the first matching filter is checked (C31_false)."
  },
  {
   "property": "C32",
   "status": "proved",
   "theorems": [
    "Akasa.C32_suback_v5",
    "Akasa.C32_identifier_zero_v5",
    "Akasa.C32_suback_v3",
    "Akasa.C32_shared_v3",
    "Akasa.C32_effect",
    "Akasa.C32_refused"
   ],
   "note": "MQTT 3 closes the connection without an answer on a shared filter (C32_shared_v3); C32_effect covers both protocols."
  },
  {
   "property": "C33",
   "status": "partial",
   "theorems": [
    "Akasa.C33_listed",
    "Akasa.C33_calls_partial",
    "Akasa.C33_agree_partial",
    "Akasa.C33_dropped",
    "Akasa.C33_false",
    "Akasa.C33_unsuback_v5",
    "Akasa.C33_unsuback_v3"
   ],
   "note": "Every subscription a session lists is in the routing table, in every reachable state; the converse holds as long as no session has been discarded by a clean start or a change of protocol level (C33_false shows the leak, C33_dropped that it happens with every discarded session). Removal is atomic with the acknowledgement."
  },
  {
   "property": "C34",
   "status": "partial",
   "theorems": [
    "Akasa.C34_retained_v5",
    "Akasa.C34_copy_v5",
    "Akasa.C34_v3_false",
    "Akasa.C34_retained_v3_partial",
    "Akasa.C34_copy_v3_partial"
   ],
   "note": "MQTT 5 in full. MQTT 3: false, a retained message with a QoS above the granted one is not delivered (C34_v3_false)."
  },
  {
   "property": "C35",
   "status": "proved",
   "theorems": [
    "Akasa.C35_never_reused",
    "Akasa.C35_inverse",
    "Akasa.C35_injective",
    "Akasa.C35_queue",
    "Akasa.C35_connect"
   ],
   "note": ""
  },
  {
   "property": "C36",
   "status": "partial",
   "theorems": [
    "Akasa.C36_registrations",
    "Akasa.C36_again",
    "Akasa.C36_subscriptions",
    "Akasa.C36_shared_false",
    "Akasa.C36_shared_partial"
   ],
   "note": "Registrations, queues and plain subscriptions in full. Shared groups: false of the code when a client is removed twice, as the expiry of an MQTT 5 session does (C36_shared_false); proved for histories in which no client leaves a group twice."
  },
  {
   "property": "C37",
   "status": "partial",
   "theorems": [
    "Akasa.C37_false",
    "Akasa.C37_count_partial",
    "Akasa.C37_at_least"
   ],
   "note": "False of the code when a connected client is taken over by a new connection (C37_false); proved for all sequences of calls without such a take-over. In the whole broker the counter is never too small (C37_at_least), take-overs included."
  },
  {
   "property": "C38",
   "status": "proved",
   "theorems": [
    "Akasa.C38_one_owner",
    "Akasa.C38_identifier",
    "Akasa.C38_stopped",
    "Akasa.C38_handover"
   ],
   "note": "Over all runs of the whole broker (any number of connections, any order of acts): one owner per client identifier, the owner is a connection of that identifier, stopped tasks never act again, and a connection that obtains a session either finds none or the previous owner stops in the same step and its state is handed over. Handlers are atomic steps (DESIGN.md)."
  },
  {
   "property": "C39",
   "status": "proved",
   "theorems": [
    "Akasa.C39_present",
    "Akasa.C39_resumed",
    "Akasa.C39_noneExpired_v3",
    "Akasa.C39_new"
   ],
   "note": "Over all runs of the whole broker: when CONNACK reports session present, what the session then is, and that it is empty otherwise. Only messages past their expiry interval can be missing from a resumed session. That the state is handed over unchanged by the previous owner is C38_handover; what happens to it in between is C68_alone."
  },
  {
   "property": "C40",
   "status": "proved",
   "theorems": [
    "Akasa.C40_stale",
    "Akasa.C40_origin",
    "Akasa.C40_v5_only",
    "Akasa.C40_fire",
    "Akasa.C40_offline_end",
    "Akasa.C40_will",
    "Akasa.C40_expiry_runs"
   ],
   "note": "Over all runs of the whole broker. A timer message has no effect on an established connection or on a session kept for another connection; an offline session ends only by hand-over or by the expiry timer of its own connection; that timer is always pending while the session is kept."
  },
  {
   "property": "C41",
   "status": "proved",
   "theorems": [
    "Akasa.C41_at_most_once",
    "Akasa.C41_never_after_disconnect",
    "Akasa.C41_published",
    "Akasa.C41_at_once",
    "Akasa.C41_later",
    "Akasa.C41_delay_runs",
    "Akasa.C41_with_will_false",
    "Akasa.C41_takeover_false"
   ],
   "note": "Over all runs of the whole broker. Two neighbouring claims are false of the code and shown so: a DISCONNECT with reason 0x04 and session expiry 0 does not publish the will (C41_with_will_false), and a connection that is taken over never publishes it (C41_takeover_false)."
  },
  {
   "property": "C42",
   "status": "proved",
   "theorems": [
    "Akasa.C42_only_silent",
    "Akasa.C42_live",
    "Akasa.C42_silent",
    "Akasa.C42_zero",
    "Akasa.C42_kicked",
    "Akasa.C42_broker",
    "Akasa.C42_zero_broker"
   ],
   "note": "The timer task is modelled with arbitrary lateness of its wake-ups; the bound of C42_silent is two intervals plus the lateness of one wake-up."
  },
  {
   "property": "C43",
   "status": "proved",
   "theorems": [
    "Akasa.C43_prefix",
    "Akasa.C43_complete",
    "Akasa.C43_live",
    "Akasa.C43_drains"
   ],
   "note": ""
  },
  {
   "property": "C44",
   "status": "proved",
   "theorems": [
    "Akasa.C44_no_panic",
    "Akasa.C44_count",
    "Akasa.C44_exactly_once",
    "Akasa.C44_at_most_once",
    "Akasa.C44_delivered"
   ],
   "note": ""
  },
  {
   "property": "C45",
   "status": "partial",
   "theorems": [
    "Akasa.Proxy.C45_header",
    "Akasa.Proxy.C45_local",
    "Akasa.Proxy.C45_unambiguous",
    "Akasa.Proxy.C45_no_crash_partial",
    "Akasa.Proxy.C45_false"
   ],
   "note": "Acceptance and refusal are characterised exactly; false of the code is only 'never a crash': a PROXY command with unspecified family or protocol hits unreachable!() (C45_false, characterised exactly by Proxy.C45_no_crash_partial). The bound of 256 bytes of extension fields is the code's."
  },
  {
   "property": "C46",
   "status": "proved",
   "theorems": [
    "Akasa.Proxy.C46_refused",
    "Akasa.Proxy.C46_tls",
    "Akasa.Proxy.C46_plain"
   ],
   "note": "Together with Proxy.C45_header."
  },
  {
   "property": "C47",
   "status": "partial",
   "theorems": [
    "Akasa.Auth.C47_check_partial",
    "Akasa.Auth.C47_inserted",
    "Akasa.Auth.C47_removed",
    "Akasa.Auth.C47_cut",
    "Akasa.Auth.C47_false"
   ],
   "note": "The exact characterisation holds for stored hashes of full length (as made by insert-password). C47_false: a file whose stored PBKDF2 hash is truncated is loaded and accepts passwords whose hash is not the stored one. insert-password and remove-password are proved through the file, for loaded or new tables."
  },
  {
   "property": "C48",
   "status": "partial",
   "theorems": [
    "Akasa.Auth.C48_roundtrip_partial",
    "Akasa.Auth.C48_reload",
    "Akasa.Auth.C48_false"
   ],
   "note": "Holds for every table that was itself loaded from a file, and for every table whose names have no line break and no leading blank. C48_false: other names, which insert-password accepts, are changed or make the file unreadable."
  },
  {
   "property": "C49",
   "status": "partial",
   "theorems": [
    "Akasa.Scram.C49_first",
    "Akasa.Scram.C49_exact",
    "Akasa.Scram.C49_one_attempt",
    "Akasa.Scram.C49_honest_partial",
    "Akasa.Scram.C49_comma_false",
    "Akasa.Scram.C49_y_false",
    "Akasa.Scram.C49_client_checks",
    "Akasa.Scram.C49_client_panic"
   ],
   "note": "Soundness is proved in full (authentication exactly for the RFC 5802 proof of the exchange that is waiting, one attempt per challenge, the client accepts only the right server signature). Completeness is proved for user names without a comma and clients without channel binding; it is false otherwise (C49_comma_false, C49_y_false). HMAC, SHA-256, PBKDF2 and base64 are parameters."
  },
  {
   "property": "C50",
   "status": "proved",
   "theorems": [
    "Akasa.C50_password",
    "Akasa.C50_all",
    "Akasa.C50_scram",
    "Akasa.C50_mechanism",
    "Akasa.C50_refused",
    "Akasa.C50_admitted"
   ],
   "note": "Over all runs of the broker with any number of handshakes. Stronger than the statement where passwords are switched on: the code then asks for a password even after SCRAM. Hash functions, HMAC, base64 and nonces are parameters."
  },
  {
   "property": "C51",
   "status": "proved",
   "theorems": [
    "Akasa.C51_publish_v5",
    "Akasa.C51_subscribe_v5",
    "Akasa.C51_unsubscribe_v5",
    "Akasa.C51_v3",
    "Akasa.C51_error_v5",
    "Akasa.C51_codes",
    "Akasa.C51_after_error"
   ],
   "note": "For every session and broker state and all answers of the hook. A refused packet has exactly the effect of a PINGREQ, with the refusal in place of PINGRESP; MQTT 3 and failing hooks: the connection ends at once and nothing is changed or sent. The refusal is for the packet as the hook left it. A packet above the maximum size never reaches the hook."
  },
  {
   "property": "C52",
   "status": "partial",
   "theorems": [
    "Akasa.C52_qos",
    "Akasa.C52_ranges_partial",
    "Akasa.C52_false"
   ],
   "note": "No panic and the right QoS for every valid configuration; the limits in every CONNACK are in range if max_inflight_server is not 0. A valid configuration may have it 0 and the broker then announces a receive maximum of 0 (C52_false)."
  },
  {
   "property": "C53",
   "status": "proved",
   "theorems": [
    "Akasa.Ws.C53_read",
    "Akasa.Ws.C53_progress",
    "Akasa.Ws.C53_unexpected",
    "Akasa.Ws.C53_eof",
    "Akasa.Ws.C53_closed",
    "Akasa.Ws.C53_write",
    "Akasa.Ws.C53_pongs",
    "Akasa.Ws.C53_close",
    "Akasa.Ws.C53_shutdown"
   ],
   "note": "The message layer (tungstenite) is an arbitrary source of messages and an arbitrary sink; any interleaving of reads, writes and shutdown."
  },
  {
   "property": "C54",
   "status": "proved",
   "theorems": [
    "Akasa.C54_too_large",
    "Akasa.C54_within_limit",
    "Akasa.C54_broker"
   ],
   "note": "The size is the encoded length reported by the packet decoder."
  },
  {
   "property": "C55",
   "status": "partial",
   "theorems": [
    "Akasa.C55_partial",
    "Akasa.C55_bounded_partial",
    "Akasa.C55_source_v5_partial",
    "Akasa.C55_source_v3_partial",
    "Akasa.C55_ids_false",
    "Akasa.C55_alias_false",
    "Akasa.C55_resume_false",
    "Akasa.C55_source_v5_false",
    "Akasa.C55_source_v3_false"
   ],
   "note": "False of the code: subscription identifiers and topic aliases are added after the check, queued messages are not checked again on reconnect, and the recorded size is too small for topics given by alias and at a length boundary for MQTT 3 publishers. Proved: every PUBLISH without those additions fits the maximum of the connection at which the message became due."
  },
  {
   "property": "C56",
   "status": "partial",
   "theorems": [
    "Akasa.C56_queued",
    "Akasa.C56_order",
    "Akasa.C56_conserved_partial",
    "Akasa.C56_drained_partial",
    "Akasa.C56_dropped",
    "Akasa.C56_moves",
    "Akasa.C56_takes",
    "Akasa.C56_false"
   ],
   "note": "Over all runs of the whole broker. At most once and in order without conditions (C56_order). Every copy is in exactly one place as long as the sender does not drop copies (C56_conserved_partial, C56_drained_partial); it drops them when its own session is taken over or its own connection ends (C56_dropped), so the unconditional claim is false (C56_false)."
  },
  {
   "property": "C57",
   "status": "proved",
   "theorems": [
    "Akasa.C57_step",
    "Akasa.C57_run",
    "Akasa.C57_bounded",
    "Akasa.C57_fifo_v3",
    "Akasa.C57_fifo_v5",
    "Akasa.C57_window_v3",
    "Akasa.C57_origin"
   ],
   "note": "C57_fifo_v5 is for clocks that do not go back (C13)."
  },
  {
   "property": "C58",
   "status": "partial",
   "theorems": [
    "Akasa.C58_live_v5",
    "Akasa.C58_retained_v3",
    "Akasa.C58_retained_v5_false",
    "Akasa.C58_live_v3_false"
   ],
   "note": "True of live messages to MQTT 5 clients and retained messages to MQTT 3 clients; false of the code in the other two cases."
  },
  {
   "property": "C59",
   "status": "partial",
   "theorems": [
    "Akasa.C59_false",
    "Akasa.C59_finish_partial"
   ],
   "note": "False of the code: a copy held by the sink of a full inbox with nothing queued behind it is dropped when the publisher's connection ends (C59_false)."
  },
  {
   "property": "C60",
   "status": "proved",
   "theorems": [
    "Akasa.C60_refused",
    "Akasa.C60_accepted",
    "Akasa.C60_only"
   ],
   "note": "The panics of routing are excluded by hypothesis: the run exists (see C03, C26 for when it does)."
  },
  {
   "property": "C61",
   "status": "partial",
   "theorems": [
    "Akasa.C61_error_partial",
    "Akasa.C61_false"
   ],
   "note": "Holds unless the CONNACK refuses the will, where session-present may be set (C61_false)."
  },
  {
   "property": "C62",
   "status": "partial",
   "theorems": [
    "Akasa.C62_known",
    "Akasa.C62_range_partial",
    "Akasa.C62_range_false"
   ],
   "note": "The interval is the one the client knows, always; in the configured range if the range is not empty (an empty one passes validation: C62_range_false)."
  },
  {
   "property": "C63",
   "status": "partial",
   "theorems": [
    "Akasa.C63_told",
    "Akasa.C63_kept_partial",
    "Akasa.C63_false"
   ],
   "note": "At the start always; it then changes only by the DISCONNECT of an MQTT 5 client with a non-zero interval, which is not limited by the maximum (C63_false)."
  },
  {
   "property": "C64",
   "status": "proved",
   "theorems": [
    "Akasa.C64_identifier",
    "Akasa.C64_told",
    "Akasa.C64_required",
    "Akasa.C64_length"
   ],
   "note": "Over all runs. That the made identifier is new rests on the uuid crate and is not proved."
  },
  {
   "property": "C65",
   "status": "proved",
   "theorems": [
    "Akasa.C65_no_effect"
   ],
   "note": "Any handshake event in any state."
  },
  {
   "property": "C66",
   "status": "proved",
   "theorems": [
    "Akasa.C66_once",
    "Akasa.C66_first"
   ],
   "note": "Over all runs with any number of connections."
  },
  {
   "property": "C67",
   "status": "proved",
   "theorems": [
    "Akasa.C67_latest",
    "Akasa.C67_lookup",
    "Akasa.C67_known"
   ],
   "note": "Over all runs of the whole broker: composition of the histories of all sessions with C06 and C07."
  },
  {
   "property": "C68",
   "status": "proved",
   "theorems": [
    "Akasa.C68_alone",
    "Akasa.C68_queue_bounded",
    "Akasa.C68_qos2_bounded",
    "Akasa.C68_qos2_once",
    "Akasa.C68_window_v3",
    "Akasa.C68_order_v3",
    "Akasa.C68_order_v5"
   ],
   "note": "Refinement of the whole broker to a session that is alone, then the properties of such a session. The order for MQTT 5 clients is proved for runs during which the clock does not go back (C13); for the window of MQTT 5 clients see C74."
  },
  {
   "property": "C69",
   "status": "proved",
   "theorems": [
    "Akasa.C69_invisible",
    "Akasa.C69_shipped"
   ],
   "note": "Equality of the whole step (session, tables, replies, messages passed on). C69_shipped is about the hook of the program (akasa/src/default_hook.rs), whatever other sessions do while it is asked. Hooks for connections are C88-C90."
  },
  {
   "property": "C70",
   "status": "partial",
   "theorems": [
    "Akasa.C70_packet_kept",
    "Akasa.C70_publish",
    "Akasa.C70_in_order",
    "Akasa.C70_subscribe_v5_partial",
    "Akasa.C70_subscribe_v3_false"
   ],
   "note": "The part on publishing is proved for both protocols; the part on subscriptions for MQTT 5. For MQTT 3 it is false of the code: apply_action calls the normal handler of SUBSCRIBE, which queues retained messages with QoS 1 and 2."
  },
  {
   "property": "C71",
   "status": "proved",
   "theorems": [
    "Akasa.C71_kept",
    "Akasa.C71_removed",
    "Akasa.C71_waits",
    "Akasa.C71_interval",
    "Akasa.C71_only",
    "Akasa.C71_stays"
   ],
   "note": "On the model of the whole broker. A session removed by its expiry timer is removed a second time when its task stops (C71_only names this case)."
  },
  {
   "property": "C72",
   "status": "proved",
   "theorems": [
    "Akasa.C72_inbox",
    "Akasa.C72_reads",
    "Akasa.C72_bounded"
   ],
   "note": "On the model of the whole broker. What waits to be written to the socket of a client is not counted (the model writes at once)."
  },
  {
   "property": "C73",
   "status": "partial",
   "theorems": [
    "Akasa.C73_false",
    "Akasa.C73_expiry_false",
    "Akasa.C73_no_panic_partial",
    "Akasa.C73_registry"
   ],
   "note": "On the model of the whole broker. False of the code for shared subscriptions, which are on by default (C73_false, C73_expiry_false); proved for every execution without them. The registry never panics in any execution. Panics of code that is not modelled (decoder, TLS, runtime) are outside."
  },
  {
   "property": "C74",
   "status": "partial",
   "theorems": [
    "Akasa.C74_request",
    "Akasa.C74_now",
    "Akasa.C74_alias",
    "Akasa.C74_alias_all",
    "Akasa.C74_window_partial",
    "Akasa.C74_told"
   ],
   "note": "On the model of the whole broker with its connection handling. The receive maximum is proved for messages without expiry interval (with expiring messages it is false after 65534 dropped messages, see C10_false); the maximum packet size is taken over (C74_request), what becomes of it is C55."
  },
  {
   "property": "C75",
   "status": "proved",
   "theorems": [
    "Akasa.C75_copies",
    "Akasa.C75_sent",
    "Akasa.C75_v3",
    "Akasa.C75_v5",
    "Akasa.C75_wills",
    "Akasa.C75_all"
   ],
   "note": "On the model of the whole broker, with the packets as values: that the bytes on the wire decode to those values is the job of the external codec. C75_v5 assumes that wills have topics; C75_wills proves it of the broker with its connection handling, C75_all combines both."
  },
  {
   "property": "C76",
   "status": "partial",
   "theorems": [
    "Akasa.C76_write_false",
    "Akasa.C76_flush_false",
    "Akasa.C76_attended_partial",
    "Akasa.C76_taken",
    "Akasa.C76_waits",
    "Akasa.C76_hook"
   ],
   "note": "On the model of one poll of the task and of all sequences of polls. False of the code for two cases: a write that takes only a part of the bytes leaves the rest without a wake-up (C76_write_false), and a flush that is not ready is not tried again (C76_flush_false); proved for everything else. Handling in order and waiting only when all was taken hold without exception, and a connection waits for a hook only with a packet that this hook is configured for (C76_hook). That a registered waker is really called is the job of tokio."
  },
  {
   "property": "C77",
   "status": "partial",
   "theorems": [
    "Akasa.C77_false",
    "Akasa.C77_queue",
    "Akasa.C77_window_partial"
   ],
   "note": "False of the code for SUBSCRIBE: all retained messages that match are queued at once (C77_false). Proved under the condition that no answer to a SUBSCRIBE is that long; C77_queue gives the bound in terms of the longest answer."
  },
  {
   "property": "C78",
   "status": "proved",
   "theorems": [
    "Akasa.C78_wire",
    "Akasa.C78_complete",
    "Akasa.C78_closed",
    "Akasa.C78_session"
   ],
   "note": "On the model of one poll of the task and of all sequences of polls. C78_session is for hooks that let packets pass unchanged (also if they answer late); C78_wire and C78_complete hold for any hooks. Shown is also that every theorem about the life of a session (Peer.run) applies to what the task does."
  },
  {
   "property": "C79",
   "status": "partial",
   "theorems": [
    "Akasa.C79_same",
    "Akasa.C79_reached_v3",
    "Akasa.C79_only_v3",
    "Akasa.C79_once_v3",
    "Akasa.C79_reached_v5",
    "Akasa.C79_only_v5",
    "Akasa.C79_once_v5",
    "Akasa.C79_false",
    "Akasa.C79_no_crash_partial"
   ],
   "note": "On a model of the routing table with the shared contents as references that outlive the lookup; C79_same relates it to the table used everywhere else. False of the code: the publisher crashes if the last subscriber of a matching filter leaves between lookup and reading (C79_false); proved not to crash when every matching filter keeps a subscriber. C79_only_v5 is for shared groups whose members do not rejoin (see C04_false)."
  },
  {
   "property": "C80",
   "status": "proved",
   "theorems": [
    "Akasa.C80_no_gap",
    "Akasa.C80_this"
   ],
   "note": "At the granularity of the table calls, which hold the lock of the whole table. That the subscription found is then read is C79."
  },
  {
   "property": "C81",
   "status": "partial",
   "theorems": [
    "Akasa.C81_failed",
    "Akasa.C81_failed_next",
    "Akasa.C81_jam",
    "Akasa.C81_false",
    "Akasa.C81_self_false",
    "Akasa.C81_new",
    "Akasa.C81_partial"
   ],
   "note": "False of the code in two ways: a connection that fails between the registration of its client and its CONNACK leaves the identifier registered without a receiver (C81_failed, C81_failed_next, C81_false); sessions whose connections are over and which have messages for full inboxes of each other (or themselves) wait forever (C81_jam, C81_self_false). Proved: if no connection failed before its CONNACK, an identifier without session is accepted at once, and one whose session is attended to with only requests in its queue is accepted when the queue is served."
  },
  {
   "property": "C82",
   "status": "partial",
   "theorems": [
    "Akasa.C82_asked",
    "Akasa.C82_forgotten",
    "Akasa.C82_false",
    "Akasa.C82_partial"
   ],
   "note": "False of the code: a CONNECT that arrives while the old session of a clean-session client is being removed is never answered (C82_false). Proved: a request for a session that somebody owns is in that session's queue; if the owner attends to it and only requests wait there, serving the queue leads to acceptance. In C82_forgotten requests beyond the capacity of the channel wait, too; in the code they fail."
  },
  {
   "property": "C83",
   "status": "partial",
   "theorems": [
    "Akasa.Accept.C83_in_time_partial",
    "Akasa.Accept.C83_websocket_partial",
    "Akasa.Accept.C83_false",
    "Akasa.Accept.C83_ws_false",
    "Akasa.Accept.C83_not_early"
   ],
   "note": "False of the code for WebSocket listeners: the handshake has no time limit (C83_false). Proved for the other listeners, and for WebSocket outside the handshake. Writing a refusal or an AUTH packet to the client is not limited in time, either; that is left open by the statement. Of time, the model has only that the timer runs and that the task is polled."
  },
  {
   "property": "C84",
   "status": "proved",
   "theorems": [
    "Akasa.Accept.C84_layers",
    "Akasa.Accept.C84_address",
    "Akasa.Accept.C84_refused"
   ],
   "note": "What the layers themselves accept is an input (PROXY header: C45)."
  },
  {
   "property": "C85",
   "status": "partial",
   "theorems": [
    "Akasa.Accept.C85_single_partial",
    "Akasa.Accept.C85_several_false",
    "Akasa.Accept.C85_none_false"
   ],
   "note": "False of the code: a client that offers mqtt and another subprotocol is refused, one that offers none is let in. Proved for clients that offer one."
  },
  {
   "property": "C86",
   "status": "partial",
   "theorems": [
    "Akasa.C86_blame",
    "Akasa.C86_interval",
    "Akasa.C86_partial",
    "Akasa.C86_false"
   ],
   "note": "False of the code: the timer of a former connection is not stopped and closes the connection that has the client identifier later, however lively. Proved for a connection that is alone with its client identifier; otherwise the silence was that of a connection with the same identifier."
  },
  {
   "property": "C87",
   "status": "partial",
   "theorems": [
    "Akasa.C87_asked",
    "Akasa.C87_gate",
    "Akasa.C87_codes",
    "Akasa.C87_partial",
    "Akasa.C87_false"
   ],
   "note": "False of the code: a client of MQTT 3 that the hook refuses gets no CONNACK (C87_false). Proved otherwise. If the hook itself fails, no client gets a CONNACK."
  },
  {
   "property": "C88",
   "status": "partial",
   "theorems": [
    "Akasa.C88_order",
    "Akasa.C88_partial",
    "Akasa.C88_taken",
    "Akasa.C88_switch",
    "Akasa.C88_silent",
    "Akasa.C88_false",
    "Akasa.C88_unpaired_false"
   ],
   "note": "False of the code: the hook after a connection obeys the switch of the hook before a connection (C88_switch, C88_silent, C88_false), and the end of a connection is not reported if the hook after a connection fails or what follows it cannot be written (C88_unpaired_false). Proved: order and number of the calls, and completeness otherwise."
  },
  {
   "property": "C89",
   "status": "partial",
   "theorems": [
    "Akasa.C89_partial",
    "Akasa.C89_locked_connect",
    "Akasa.C89_locked_disconnect",
    "Akasa.C89_false"
   ],
   "note": "False of the code: after a failure of the hook after a connection or after a disconnect the client identifier can never be used again and the will is lost (C89_locked_connect, C89_locked_disconnect: in all continuations). Proved: nothing else is lost, and a failure of the hook before a connection changes nothing."
  },
  {
   "property": "C90",
   "status": "proved",
   "theorems": [
    "Akasa.C90_transparent",
    "Akasa.C90_reaches",
    "Akasa.C90_shipped"
   ],
   "note": "C90_shipped is about the hook of the program (akasa/src/default_hook.rs). The actions the hook after a connection may return are C108."
  },
  {
   "property": "C91",
   "status": "partial",
   "theorems": [
    "Akasa.Start.C91_partial",
    "Akasa.Start.C91_connected_partial",
    "Akasa.Start.C91_false"
   ],
   "note": "False of the code: fail_if_no_peer_cert is ignored without verify_peer, and the settings are accepted (C91_false). Proved for all other settings."
  },
  {
   "property": "C92",
   "status": "proved",
   "theorems": [
    "Akasa.Start.C92_starts",
    "Akasa.Start.C92_no_panic",
    "Akasa.Start.C92_exact"
   ],
   "note": "Reading of YAML and PEM files and rustls are parameters."
  },
  {
   "property": "C93",
   "status": "partial",
   "theorems": [
    "Akasa.Start.C93_apart",
    "Akasa.Start.C93_returns",
    "Akasa.Start.C93_stays",
    "Akasa.Start.C93_once",
    "Akasa.Start.C93_served_partial",
    "Akasa.Start.C93_false",
    "Akasa.Start.C93_http_false"
   ],
   "note": "False of the code: if accept fails once, all connections that wait at that listener are dropped (C93_false); the HTTP listener is not tried again (C93_http_false). Proved: listeners come back, are independent, the server does not end, and connections are served if accept does not fail there."
  },
  {
   "property": "C94",
   "status": "partial",
   "theorems": [
    "Akasa.C94_partial",
    "Akasa.C94_delivers_partial",
    "Akasa.C94_waits",
    "Akasa.C94_unread",
    "Akasa.C94_obeys",
    "Akasa.C94_false"
   ],
   "note": "False of the code: once eleven copies wait for a client whose inbox is full, the publisher is not read any more, in all continuations in which that client takes nothing and keeps its session (C94_waits; witness C94_false). Proved: messages on their way to clients that read are delivered and a publisher whose receivers read is read on, whatever all others do; a connection the client of which does not read takes no messages but can be closed or taken over."
  },
  {
   "property": "C95",
   "status": "partial",
   "theorems": [
    "Akasa.C95_truth",
    "Akasa.C95_told",
    "Akasa.C95_partial",
    "Akasa.C95_takeover_false",
    "Akasa.C95_silent_false",
    "Akasa.C95_foreign_false",
    "Akasa.C95_hook_false"
   ],
   "note": "False of the code: the connection is closed without a DISCONNECT when the session is taken over, when the client was silent for too long, after a second CONNECT or another packet out of place, and when a hook fails. Proved: a DISCONNECT is sent only for a mistake that the client made and with the reason code of that mistake; every such mistake is answered so (or, for a QoS 2 identifier in use, by the PUBREC of the same name); it is the last packet, nothing else of the batch follows, and it is completely written before the connection is closed."
  },
  {
   "property": "C96",
   "status": "partial",
   "theorems": [
    "Akasa.C96_sent",
    "Akasa.C96_subscribe",
    "Akasa.C96_will_partial",
    "Akasa.C96_qos_false",
    "Akasa.C96_retain_false",
    "Akasa.C32_suback_v5",
    "Akasa.C32_suback_v3"
   ],
   "note": "False of the code: a PUBLISH of an MQTT 5 client with a higher QoS than announced is accepted and passed on (C96_qos_false); one with RETAIN is stored though retained messages are not available, and MQTT 3 clients that subscribe later get it (C96_retain_false). Proved over the whole broker: no PUBLISH is sent with a higher QoS, none with RETAIN to MQTT 5 clients if not available, no retained messages for their subscriptions, no will beyond the limits is accepted; what is granted: C32."
  },
  {
   "property": "C97",
   "status": "proved",
   "theorems": [
    "Akasa.C97_held",
    "Akasa.C97_sent",
    "Akasa.C97_now"
   ],
   "note": "Topics of published messages and (for the match of retained messages) filters are assumed valid, as the packet decoder enforces. QoS 1 and 2 messages that were accepted for the client before it unsubscribed are still delivered, as MQTT allows."
  },
  {
   "property": "C98",
   "status": "partial",
   "theorems": [
    "Akasa.C98_settled_v3",
    "Akasa.C98_settled_v5_partial",
    "Akasa.C98_all",
    "Akasa.C98_false"
   ],
   "note": "False of the code for MQTT 5 in general (C98_false): a pass that drops an expired message does not send the one that comes into the window by this; it waits until something else happens. Proved over the whole broker for MQTT 3, and for MQTT 5 if no message has an expiry interval. The clock is assumed to show a time after inflight_timeout seconds past 1970."
  },
  {
   "property": "C99",
   "status": "partial",
   "theorems": [
    "Akasa.C99_first_partial",
    "Akasa.C99_roomy_partial",
    "Akasa.C99_broker_partial",
    "Akasa.C99_false"
   ],
   "note": "False of the code in general (C99_false): dropped messages use up identifiers too, so that after 65535 messages an identifier can be used for two messages at once. Proved for the first 65535 messages of a session, and for any number of messages if none is dropped because the queue is full and none expires."
  },
  {
   "property": "C100",
   "status": "partial",
   "theorems": [
    "Akasa.C100_interval_partial",
    "Akasa.C100_retained_false",
    "Akasa.C100_v3_false",
    "Akasa.C100_waiting_false",
    "Akasa.C18_expiry",
    "Akasa.C18_expired_never_sent"
   ],
   "note": "False of the code: the time during which a message was retained (C100_retained_false) or waited before the receiver's session took it (C100_waiting_false) does not count, and for MQTT 3 receivers no time counts (C100_v3_false). Proved over the whole broker: an interval is never invented and never longer than the publisher's, and never left out between MQTT 5 clients. The time in the queue of a session counts: C18."
  },
  {
   "property": "C101",
   "status": "partial",
   "theorems": [
    "Akasa.C101_at_most_once_partial",
    "Akasa.C101_exactly_once_partial",
    "Akasa.C101_broker_partial",
    "Akasa.C101_broker_all_partial",
    "Akasa.C101_false"
   ],
   "note": "False of the code in general (C101_false): dropped messages use up identifiers too, so that after 65535 messages the client takes a new message with QoS 2 for the repetition of an old one and it is lost. Proved for the first 65535 messages with QoS 1 or 2 of a session, for every client that follows the protocol and every delay and loss; that nothing is missing under the conditions of C98 (no message dropped or expired)."
  },
  {
   "property": "C102",
   "status": "partial",
   "theorems": [
    "Akasa.C102_at_most_once",
    "Akasa.C102_at_least_once",
    "Akasa.C102_completed",
    "Akasa.C102_exactly_once_partial",
    "Akasa.C102_exactly_once_false",
    "Akasa.C102_stuck",
    "Akasa.C102_repetition_refused",
    "Akasa.C102_broker"
   ],
   "note": "At most once for QoS 2, at least once for QoS 1, and completion while the connection goes on: proved in full, also in the whole broker (C102_broker). Exactly once for QoS 2 is false of the code (C102_exactly_once_false): a message whose first transmission was lost with the connection is answered when it is sent again, but not passed on. Proved when no first transmission was lost or made the broker end the connection, and (MQTT 5) the hash of a packet does not depend on the mark for repetitions. C102_stuck (MQTT 3): a message whose PUBCOMP was lost with the connection is never completed. C102_repetition_refused: with a hash that depends on the mark for repetitions, repetitions are refused."
  },
  {
   "property": "C103",
   "status": "partial",
   "theorems": [
    "Akasa.C103_held",
    "Akasa.C103_queued",
    "Akasa.C103_taken_partial",
    "Akasa.C103_due_partial",
    "Akasa.C103_got_partial",
    "Akasa.C103_false"
   ],
   "note": "Held and queued in full. Taken: if the publishing connection was not taken over and did not end while it still held copies (C56). Due: in full for MQTT 5; for MQTT 3 when the filter is the first of those the message was routed for. It is false otherwise (C103_false): after a clean start the filters of the discarded session are still in the routing table, and if one of them comes first the message is not delivered. Got: under the conditions of C98 and C101."
  },
  {
   "property": "C104",
   "status": "partial",
   "theorems": [
    "Akasa.C104_queues",
    "Akasa.C104_registered_partial",
    "Akasa.C104_subscribed_partial",
    "Akasa.C104_bare_partial",
    "Akasa.C104_stays",
    "Akasa.C104_dropped",
    "Akasa.C104_false",
    "Akasa.C104_registered_false",
    "Akasa.C104_grows_false",
    "Akasa.C104_pile_false",
    "Akasa.C104_left_false"
   ],
   "note": "Queues: proved without conditions. Registry: if no connection failed between registration and CONNACK. Subscriptions: if no session with subscriptions was dropped by a clean start. Everything empty: with both conditions and without shared subscriptions. Without the conditions the claim is false of the code: a clean start leaves the old subscriptions in the routing table, and after the session has ended they stay in all continuations (C104_stays); a connection that fails before its CONNACK leaves its client registered for ever, and there is no limit to how many of them there are (C104_grows_false), nor to the subscriptions that are left by clients that fail to take up their sessions (C104_pile_false; C104_dropped has it for every dropped session)."
  },
  {
   "property": "C105",
   "status": "partial",
   "theorems": [
    "Akasa.C105_once",
    "Akasa.C105_v3",
    "Akasa.C105_one_partial",
    "Akasa.C105_v3_false",
    "Akasa.C105_left_false"
   ],
   "note": "Over all runs of the whole broker. At most one member gets a message, always. Exactly one, if the publisher speaks MQTT 5, no subscriptions were lost with a discarded session and nobody has come back to a shared subscription after leaving it (members may come and leave for good; a session with shared subscriptions does not expire). False without: messages of MQTT 3 clients go to no shared subscription at all (C105_v3, C105_v3_false); after a clean start the old membership stays and swallows messages (C105_left_false); members that come back corrupt the group (C04_false, C26_shared_false)."
  },
  {
   "property": "C106",
   "status": "partial",
   "theorems": [
    "Akasa.C106_partial",
    "Akasa.C106_false"
   ],
   "note": "Over all runs of the whole broker. Proved if no subscriptions were lost with a discarded session, nobody has come back to a shared subscription after leaving it, and the same clients have this one in between. False of the code otherwise (C106_false): after some have left and come back the broker forgets a member that has the subscription all the time; when it subscribes again, messages with the same topic go elsewhere. The hash function of the group is a parameter; that the group keeps it as long as it exists is read off route.rs (it is a field of the group)."
  },
  {
   "property": "C107",
   "status": "partial",
   "theorems": [
    "Akasa.C107_partial",
    "Akasa.C107_least",
    "Akasa.C107_takeover_false",
    "Akasa.C107_drift_false"
   ],
   "note": "Over all runs of the whole broker and the text of the page. It never reports fewer connections than there are (C107_least). Exact if no client connects while it still has a connection and every accepted client got its CONNACK (C107_partial). False of the code otherwise: a client that takes its session over is counted twice (C107_takeover_false), and every attempt of a client whose first connection failed before CONNACK is counted, without bound (C107_drift_false). The router of the HTTP server is not modelled."
  },
  {
   "property": "C108",
   "status": "partial",
   "theorems": [
    "Akasa.C108_silent",
    "Akasa.C108_shipped",
    "Akasa.C108_order",
    "Akasa.C108_sent_partial",
    "Akasa.C108_v5",
    "Akasa.C108_failed",
    "Akasa.C108_false"
   ],
   "note": "Full claim proved for MQTT 5 (C108_v5), and for MQTT 3 if the hook asks for no subscription (C108_sent_partial). False of the code for subscriptions in MQTT 3 (C108_false): the matching retained messages with QoS 1 and 2 are queued and sent at once. That each action is like one of the client is C70; when the hook is called and what becomes of a connection whose hook fails is C88 and C89."
  },
  {
   "property": "C109",
   "status": "proved",
   "theorems": [
    "Akasa.Start.C109_default",
    "Akasa.Start.C109_closed",
    "Akasa.Start.C109_anonymous",
    "Akasa.Start.C109_limits"
   ],
   "note": "The printed text (YAML) and reading it back are not modelled; the fields are those of ServerConfig. Well formed means: a client identifier, no authentication method or data, no limit of zero and no will for an empty topic or one that begins with a dollar sign."
  }
 ]
}