{
 "claims": [
  {
   "property": "C01",
   "status": "proved",
   "theorems": [
    "Wamp.C01_nextID_closed_form"
   ],
   "note": ""
  },
  {
   "property": "C02",
   "status": "proved",
   "theorems": [
    "Wamp.Lock.C02_nextID_concurrent"
   ],
   "note": ""
  },
  {
   "property": "C03",
   "status": "partial",
   "theorems": [
    "Wamp.C03_generateID_zero",
    "Wamp.C03_generateID_partial"
   ],
   "note": "Refuted as stated: GenerateID can return 0. Partial theorem covers every non-zero value."
  },
  {
   "property": "C04",
   "status": "proved",
   "theorems": [
    "Wamp.RawSocket.C04_header_roundtrip",
    "Wamp.RawSocket.C04_header_receive_send",
    "Wamp.RawSocket.C04_int_to_bytes",
    "Wamp.RawSocket.C04_bytes_to_int"
   ],
   "note": "The last two are about the exported IntToBytes and BytesToInt on all inputs."
  },
  {
   "property": "C05",
   "status": "partial",
   "theorems": [
    "Wamp.RawSocket.C05_max_length_lost",
    "Wamp.RawSocket.C05_announced_lengths_partial"
   ],
   "note": "Refuted as stated for length 2^24; every other announced length is covered."
  },
  {
   "property": "C06",
   "status": "proved",
   "theorems": [
    "Wamp.RawSocket.C06_handshake_roundtrip"
   ],
   "note": ""
  },
  {
   "property": "C07",
   "status": "partial",
   "theorems": [
    "Wamp.RawSocket.C07_handshake_sizes_partial",
    "Wamp.RawSocket.C07_nonpositive_size_crashes"
   ],
   "note": "Acceptance set is exact; 'never crashes' is refuted for sizes <= 0 (amd64)."
  },
  {
   "property": "C08",
   "status": "proved",
   "theorems": [
    "Wamp.RawSocket.C08_receive_handshake"
   ],
   "note": ""
  },
  {
   "property": "C09",
   "status": "partial",
   "theorems": [
    "Wamp.C09_int16_rejected",
    "Wamp.C09_asUInt64_partial"
   ],
   "note": "Refuted for int16; proved for all other integer types and all non-numbers."
  },
  {
   "property": "C10",
   "status": "proved",
   "theorems": [
    "Wamp.C10_asInt"
   ],
   "note": ""
  },
  {
   "property": "C22",
   "status": "proved",
   "theorems": [
    "Wamp.C22_hex_base64"
   ],
   "note": ""
  },
  {
   "property": "C83",
   "status": "proved",
   "theorems": [
    "Wamp.Lock.C83_mutex_atomic",
    "Wamp.Dealer.C83_dealer",
    "Wamp.Dealer.C83_answers",
    "Wamp.Broker.C83_broker"
   ],
   "note": "For every division of the method bodies into steps."
  },
  {
   "property": "C11",
   "status": "proved",
   "theorems": [
    "Wamp.C11_parse_iff_layout"
   ],
   "note": ""
  },
  {
   "property": "C12",
   "status": "partial",
   "theorems": [
    "Wamp.C12_parser_crashes",
    "Wamp.Cbor.C12_cbor_bytes",
    "Wamp.MsgPack.C12_msgpack_bytes",
    "Wamp.Json.C12_json_bytes",
    "Wamp.C12_panics_exactly_partial"
   ],
   "note": "Refuted: the empty list and two-element HELLO/AUTHENTICATE lists crash the parser; the exact set of crashing inputs is proved."
  },
  {
   "property": "C13",
   "status": "proved",
   "theorems": [
    "Wamp.C13_dispatch"
   ],
   "note": ""
  },
  {
   "property": "C14",
   "status": "partial",
   "theorems": [
    "Wamp.C14_roundtrip_partial",
    "Wamp.C14_lost_messages"
   ],
   "note": "Refuted for ABORT with kwargs and nil args, WELCOME/CHALLENGE with nil map and binary payloads; proved for all other messages."
  },
  {
   "property": "C15",
   "status": "proved",
   "theorems": [
    "Wamp.C15_json_ids"
   ],
   "note": ""
  },
  {
   "property": "C16",
   "status": "proved",
   "theorems": [
    "Wamp.C16_marshal_layout"
   ],
   "note": ""
  },
  {
   "property": "C17",
   "status": "proved",
   "theorems": [
    "Wamp.C17_constructors_non_nil"
   ],
   "note": ""
  },
  {
   "property": "C18",
   "status": "proved",
   "theorems": [
    "Wamp.C18_payload_roundtrip"
   ],
   "note": ""
  },
  {
   "property": "C19",
   "status": "partial",
   "theorems": [
    "Wamp.C19_empty_payload_lost",
    "Wamp.C19_empty_only_partial"
   ],
   "note": "Refuted: an empty payload is written as no bytes, which cannot be read back."
  },
  {
   "property": "C20",
   "status": "proved",
   "theorems": [
    "Wamp.C20_raw_payload"
   ],
   "note": ""
  },
  {
   "property": "C21",
   "status": "partial",
   "theorems": [
    "Wamp.C21_payload_decode",
    "Wamp.C21_decodeCBOR_crashes",
    "Wamp.C21_decodeCBOR_partial"
   ],
   "note": "DeserializePayload part proved in full; DecodeCBOR crashes exactly on lists shorter than two."
  },
  {
   "property": "C23",
   "status": "proved",
   "theorems": [
    "Wamp.C23_cra_completeness"
   ],
   "note": ""
  },
  {
   "property": "C24",
   "status": "proved",
   "theorems": [
    "Wamp.C24_cra_soundness"
   ],
   "note": ""
  },
  {
   "property": "C25",
   "status": "proved",
   "theorems": [
    "Wamp.C25_same_cra_key",
    "Wamp.C25_numbers_survive"
   ],
   "note": ""
  },
  {
   "property": "C26",
   "status": "proved",
   "theorems": [
    "Wamp.C26_cryptosign_completeness"
   ],
   "note": ""
  },
  {
   "property": "C27",
   "status": "proved",
   "theorems": [
    "Wamp.C27_cryptosign_soundness"
   ],
   "note": ""
  },
  {
   "property": "C28",
   "status": "partial",
   "theorems": [
    "Wamp.C28_anonymous_not_allowed",
    "Wamp.C28_select_partial",
    "Wamp.Acceptor.C28_refused"
   ],
   "note": "Refuted: an empty proposal selects anonymous even when the server does not allow it; exact behaviour proved for all other inputs."
  },
  {
   "property": "C29",
   "status": "partial",
   "theorems": [
    "Wamp.C29_wrong_length_crashes",
    "Wamp.C29_non_string_pubkey_kept",
    "Wamp.C29_cryptosign_partial"
   ],
   "note": "Refuted for key lengths other than 32 bytes (crash) and for a pubkey that is not a string (kept)."
  },
  {
   "property": "C30",
   "status": "proved",
   "theorems": [
    "Wamp.Acceptor.C30_welcome_approved",
    "Wamp.Acceptor.C30_default_only_anonymous"
   ],
   "note": ""
  },
  {
   "property": "C31",
   "status": "proved",
   "theorems": [
    "Wamp.Acceptor.C31_cra_binding"
   ],
   "note": ""
  },
  {
   "property": "C32",
   "status": "partial",
   "theorems": [
    "Wamp.Acceptor.C32_replay_accepted",
    "Wamp.Acceptor.C32_cryptosign_partial"
   ],
   "note": "Refuted: the signed challenge is not compared with the one sent, so an old signature is accepted. Proved: WELCOME implies a signature valid under the approved key."
  },
  {
   "property": "C33",
   "status": "proved",
   "theorems": [
    "Wamp.Acceptor.C33_nothing_after_welcome"
   ],
   "note": ""
  },
  {
   "property": "C34",
   "status": "proved",
   "theorems": [
    "Wamp.Acceptor.C34_details_agree"
   ],
   "note": ""
  },
  {
   "property": "C35",
   "status": "proved",
   "theorems": [
    "Wamp.Acceptor.C35_authenticate_after_challenge"
   ],
   "note": ""
  },
  {
   "property": "C36",
   "status": "partial",
   "theorems": [
    "Wamp.Acceptor.C36_retry_succeeds",
    "Wamp.Acceptor.C36_no_new_hello_partial"
   ],
   "note": "Refuted: after an ABORT another attempt on the same acceptor can succeed."
  },
  {
   "property": "C37",
   "status": "partial",
   "theorems": [
    "Wamp.Acceptor.C37_crashes",
    "Wamp.Acceptor.C37_no_crash_partial"
   ],
   "note": "Refuted for authenticators returning a nil response or a negative key length; no crash with well-behaved authenticators."
  },
  {
   "property": "C38",
   "status": "proved",
   "theorems": [
    "Wamp.Joiner.C38_only_when_due"
   ],
   "note": ""
  },
  {
   "property": "C39",
   "status": "proved",
   "theorems": [
    "Wamp.Joiner.C39_details"
   ],
   "note": ""
  },
  {
   "property": "C40",
   "status": "partial",
   "theorems": [
    "Wamp.Joiner.C40_router_crashes_joiner",
    "Wamp.Joiner.C40_crashes_exactly_partial"
   ],
   "note": "Refuted: WELCOME without text authid/authrole, and a WAMP-CRA CHALLENGE with negative key length, crash the joiner. The exact set of crashing messages is proved."
  },
  {
   "property": "C41",
   "status": "partial",
   "theorems": [
    "Wamp.Joiner.C41_welcome_after_abort",
    "Wamp.Joiner.C41_abort_is_error_partial",
    "Wamp.Joiner.C41_no_session_partial"
   ],
   "note": "Refuted: a WELCOME after an ABORT is accepted."
  },
  {
   "property": "C42",
   "status": "proved",
   "theorems": [
    "Wamp.Handshake.C42_honest_login",
    "Wamp.Handshake.C42_cra_responses",
    "Wamp.Handshake.C42_cbor",
    "Wamp.Handshake.C42_msgpack",
    "Wamp.Handshake.C42_json"
   ],
   "note": ""
  },
  {
   "property": "C43",
   "status": "partial",
   "theorems": [
    "Wamp.Session.C43_accepts_partial",
    "Wamp.Session.C43_other_kinds",
    "Wamp.Session.C43_settled_but_accepted"
   ],
   "note": "Proved as an exact characterisation for every message kind; refuted in that SUBSCRIBED, UNREGISTERED and UNSUBSCRIBED do not settle their requests."
  },
  {
   "property": "C44",
   "status": "proved",
   "theorems": [
    "Wamp.Session.C44_one_answer_per_call"
   ],
   "note": ""
  },
  {
   "property": "C45",
   "status": "proved",
   "theorems": [
    "Wamp.Session.C45_one_answer_concurrently"
   ],
   "note": ""
  },
  {
   "property": "C46",
   "status": "partial",
   "theorems": [
    "Wamp.Session.C46_two_results",
    "Wamp.Session.C46_one_answer_concurrently_partial"
   ],
   "note": "Refuted: two final RESULTs received concurrently can both be accepted. Proved for ERRORs under every schedule and for all answers with one reader."
  },
  {
   "property": "C47",
   "status": "partial",
   "theorems": [
    "Wamp.Session.C47_settled_twice",
    "Wamp.Session.C47_errors_partial"
   ],
   "note": "Refuted: SUBSCRIBED is accepted any number of times. The bound is proved for ERROR answers."
  },
  {
   "property": "C48",
   "status": "proved",
   "theorems": [
    "Wamp.Session.C48_failed_call_no_effect",
    "Wamp.Session.C48_bad_bytes_no_effect"
   ],
   "note": ""
  },
  {
   "property": "C49",
   "status": "proved",
   "theorems": [
    "Wamp.Session.C49_kinds_independent"
   ],
   "note": ""
  },
  {
   "property": "C50",
   "status": "proved",
   "theorems": [
    "Wamp.Session.C50_only_confirmed"
   ],
   "note": ""
  },
  {
   "property": "C70",
   "status": "proved",
   "theorems": [
    "Wamp.Broker.C70_exact_delivery"
   ],
   "note": ""
  },
  {
   "property": "C71",
   "status": "partial",
   "theorems": [
    "Wamp.Broker.C71_other_policy",
    "Wamp.Broker.C71_recipients_partial"
   ],
   "note": "Refuted: the match policy is that of the first subscriber, so a later exact subscriber receives prefix matches. Proved with the policy of the subscription's creator."
  },
  {
   "property": "C72",
   "status": "partial",
   "theorems": [
    "Wamp.Broker.C72_left_behind",
    "Wamp.Broker.C72_patterns_partial"
   ],
   "note": "Refuted: when one subscriber of a pattern leaves, the others stop receiving. Proved while nobody has left the pattern."
  },
  {
   "property": "C73",
   "status": "partial",
   "theorems": [
    "Wamp.Broker.C73_one_subscription",
    "Wamp.Broker.C73_selected_partial"
   ],
   "note": "Refuted: an event goes to the subscribers of one matching subscription only. Which one is characterised exactly."
  },
  {
   "property": "C74",
   "status": "partial",
   "theorems": [
    "Wamp.Broker.C74_publisher_included",
    "Wamp.Broker.C74_publisher_partial"
   ],
   "note": "Refuted: exclude_me is not implemented, the publisher receives its own event. Proved: only if it holds a matching subscription."
  },
  {
   "property": "C75",
   "status": "proved",
   "theorems": [
    "Wamp.Broker.C75_acknowledge"
   ],
   "note": ""
  },
  {
   "property": "C76",
   "status": "proved",
   "theorems": [
    "Wamp.Broker.C76_no_panic"
   ],
   "note": ""
  },
  {
   "property": "C77",
   "status": "proved",
   "theorems": [
    "Wamp.Broker.C77_subscription_ids"
   ],
   "note": ""
  },
  {
   "property": "C78",
   "status": "proved",
   "theorems": [
    "Wamp.Broker.C78_unsubscribe",
    "Wamp.Broker.C78_no_more_events",
    "Wamp.Broker.C78_others_keep"
   ],
   "note": ""
  },
  {
   "property": "C79",
   "status": "proved",
   "theorems": [
    "Wamp.Broker.C79_not_attached"
   ],
   "note": ""
  },
  {
   "property": "C80",
   "status": "proved",
   "theorems": [
    "Wamp.Broker.C80_disclosure"
   ],
   "note": ""
  },
  {
   "property": "C81",
   "status": "proved",
   "theorems": [
    "Wamp.Broker.C81_remove",
    "Wamp.Broker.C81_no_more_events",
    "Wamp.Broker.C78_others_keep"
   ],
   "note": ""
  },
  {
   "property": "C82",
   "status": "proved",
   "theorems": [
    "Wamp.Broker.C82_has_subscription"
   ],
   "note": ""
  },
  {
   "property": "C51",
   "status": "proved",
   "theorems": [
    "Wamp.Dealer.C51_ids",
    "Wamp.Dealer.C51_fresh",
    "Wamp.Dealer.C51_register"
   ],
   "note": ""
  },
  {
   "property": "C52",
   "status": "proved",
   "theorems": [
    "Wamp.Dealer.C52_register",
    "Wamp.Dealer.C52_call",
    "Wamp.Dealer.C52_only_owner",
    "Wamp.Dealer.C52_no_owner"
   ],
   "note": ""
  },
  {
   "property": "C53",
   "status": "proved",
   "theorems": [
    "Wamp.Dealer.C53_attached"
   ],
   "note": ""
  },
  {
   "property": "C54",
   "status": "partial",
   "theorems": [
    "Wamp.Dealer.C54_unregistered",
    "Wamp.Dealer.C54_registered_partial",
    "Wamp.Dealer.C54_members"
   ],
   "note": "Refuted: a session that left a shared registration by UNREGISTER keeps getting calls. Proved: it once registered a matching procedure; and, for histories in which nobody registers twice or unregisters a shared registration, it is a current member."
  },
  {
   "property": "C55",
   "status": "proved",
   "theorems": [
    "Wamp.Dealer.C55_called",
    "Wamp.Dealer.C55_policies",
    "Wamp.Dealer.C55_roundrobin"
   ],
   "note": ""
  },
  {
   "property": "C56",
   "status": "proved",
   "theorems": [
    "Wamp.Dealer.C56_once",
    "Wamp.Dealer.C56_refused"
   ],
   "note": ""
  },
  {
   "property": "C57",
   "status": "proved",
   "theorems": [
    "Wamp.Dealer.C57_answers"
   ],
   "note": ""
  },
  {
   "property": "C58",
   "status": "proved",
   "theorems": [
    "Wamp.Dealer.C58_result",
    "Wamp.Dealer.C58_error"
   ],
   "note": ""
  },
  {
   "property": "C59",
   "status": "proved",
   "theorems": [
    "Wamp.Dealer.C59_progress",
    "Wamp.Dealer.C59_ends"
   ],
   "note": ""
  },
  {
   "property": "C60",
   "status": "partial",
   "theorems": [
    "Wamp.Dealer.C60_stranger",
    "Wamp.Dealer.C60_outstanding_partial"
   ],
   "note": "Refuted: any session can answer any outstanding invocation. Proved: only outstanding invocations are answered."
  },
  {
   "property": "C61",
   "status": "partial",
   "theorems": [
    "Wamp.Dealer.C61_final_call",
    "Wamp.Dealer.C61_other_callee",
    "Wamp.Dealer.C61_same_id_partial"
   ],
   "note": "Refuted: the final CALL gets a new invocation ID, and a progressive CALL can go to another callee of a shared registration. Proved: CALLs with progress=true keep the invocation ID."
  },
  {
   "property": "C62",
   "status": "partial",
   "theorems": [
    "Wamp.Dealer.C62_no_answer",
    "Wamp.Dealer.C62_open_partial"
   ],
   "note": "Refuted: nothing is ever sent to the caller when the callee leaves."
  },
  {
   "property": "C65",
   "status": "proved",
   "theorems": [
    "Wamp.Dealer.C65_disclosure"
   ],
   "note": ""
  },
  {
   "property": "C63",
   "status": "partial",
   "theorems": [
    "Wamp.Dealer.C63_old_handle",
    "Wamp.Dealer.C63_stranger",
    "Wamp.Dealer.C63_members_partial"
   ],
   "note": "Refuted: unregistering one's old handle of a shared procedure can affect the registration. Proved: a session that never registered the ID is refused without effect; the other members keep being called as long as they hold the registration."
  },
  {
   "property": "C64",
   "status": "partial",
   "theorems": [
    "Wamp.Dealer.C64_unregister",
    "Wamp.Dealer.C64_remove",
    "Wamp.Dealer.C64_call",
    "Wamp.Dealer.C64_disclose",
    "Wamp.Dealer.C64_panics_exactly_partial"
   ],
   "note": "Refuted: four ways to crash the dealer. The exact conditions under which a call panics are proved."
  },
  {
   "property": "C66",
   "status": "partial",
   "theorems": [
    "Wamp.Dealer.C66_lost",
    "Wamp.Dealer.C66_payload_partial"
   ],
   "note": "Refuted: a binary payload is lost for callees of other serializers. Proved for args/kwargs and for static serializers."
  },
  {
   "property": "C67",
   "status": "partial",
   "theorems": [
    "Wamp.Dealer.C67_broken",
    "Wamp.Dealer.C67_remove",
    "Wamp.Dealer.C67_calls",
    "Wamp.Dealer.C67_others_partial",
    "Wamp.Dealer.C67_succeeds_partial"
   ],
   "note": "Refuted: removing a member of a shared registration can make it crash or unreachable. Proved: the removed session gets nothing, a second removal fails, and other exact registrations are unaffected where nobody unregistered a shared registration."
  },
  {
   "property": "C68",
   "status": "partial",
   "theorems": [
    "Wamp.Dealer.C68_shadowed",
    "Wamp.Dealer.C68_longest_partial"
   ],
   "note": "Refuted: an emptied longer prefix shadows a live shorter one."
  },
  {
   "property": "C69",
   "status": "partial",
   "theorems": [
    "Wamp.Dealer.C69_lost",
    "Wamp.Dealer.C69_wildcard_partial"
   ],
   "note": "Refuted: a wildcard procedure is lost when one of its registrants leaves."
  },
  {
   "property": "C84",
   "status": "partial",
   "theorems": [
    "Wamp.Dealer.C63_old_handle",
    "Wamp.Dealer.C84_yes_partial",
    "Wamp.Dealer.C84_exact"
   ],
   "note": "Refuted after UNREGISTER of a shared registration."
  },
  {
   "property": "C85",
   "status": "partial",
   "theorems": [
    "Wamp.Dealer.C85_stale",
    "Wamp.Dealer.C85_answerable_partial"
   ],
   "note": "Refuted: a CALL with progress that reuses the request ID of an answered call is forwarded under the old invocation ID, which cannot be answered any more. Proved for every invocation ID that got no final or refused answer yet."
  },
  {
   "property": "C86",
   "status": "proved",
   "theorems": [
    "Wamp.RawSocket.C86_stream",
    "Wamp.RawSocket.C86_whole",
    "Wamp.RawSocket.C86_limit"
   ],
   "note": "C86_limit shows that the bound on the payload is sharp."
  },
  {
   "property": "C87",
   "status": "proved",
   "theorems": [
    "Wamp.C87_zone",
    "Wamp.C87_timestamp"
   ],
   "note": ""
  },
  {
   "property": "C88",
   "status": "partial",
   "theorems": [
    "Wamp.C88_int16_rejected",
    "Wamp.C88_asFloat64_partial"
   ],
   "note": "Refuted for int16, which is rejected."
  },
  {
   "property": "C89",
   "status": "proved",
   "theorems": [
    "Wamp.System.C89_broker_accepted",
    "Wamp.System.C89_reused_id"
   ],
   "note": "C89_reused_id shows that the condition on request IDs is needed."
  },
  {
   "property": "C90",
   "status": "partial",
   "theorems": [
    "Wamp.System.C90_progressive_rejected",
    "Wamp.System.C90_answers_accepted_partial"
   ],
   "note": "Refuted for progressive calls that are continued after the callee finished. Proved for clients that use every CALL and every REGISTER request ID once."
  },
  {
   "property": "C91",
   "status": "partial",
   "theorems": [
    "Wamp.System.C91_invoked_after_unregistered",
    "Wamp.System.C91_unregistered_twice",
    "Wamp.System.C91_simple_partial",
    "Wamp.System.C91_tame_partial",
    "Wamp.System.C91_single_partial"
   ],
   "note": "Refuted for shared registrations. Proved for registrations the client never unregistered (and their single UNREGISTER), and for all where no shared registration is unregistered; in particular for exclusive registrations."
  },
  {
   "property": "C92",
   "status": "partial",
   "theorems": [
    "Wamp.Wildcard.C92_not_wamp",
    "Wamp.Wildcard.C92_crosses_dots",
    "Wamp.Wildcard.C92_plain_partial",
    "Wamp.Wildcard.C92_stars_partial",
    "Wamp.Wildcard.C92_event",
    "Wamp.Wildcard.C92_call",
    "Wamp.PathMatch.C92_documented",
    "Wamp.PathMatch.C92_code_partial"
   ],
   "note": "Refuted: patterns in WAMP notation match only themselves. Proved for every function that does what path.Match documents: exactly what patterns with and without stars match, and what follows for events and calls. C92_documented proves the assumption for the model of path.Match; patterns with ?, [ and backslash are the subject of C100."
  },
  {
   "property": "C93",
   "status": "proved",
   "theorems": [
    "Wamp.C93_known_serializers",
    "Wamp.C93_unknown_serializers"
   ],
   "note": ""
  },
  {
   "property": "C94",
   "status": "proved",
   "theorems": [
    "Wamp.RawSocket.C94_connection",
    "Wamp.RawSocket.C94_all"
   ],
   "note": ""
  },
  {
   "property": "C95",
   "status": "proved",
   "theorems": [
    "Wamp.Cbor.C95_faithful",
    "Wamp.Cbor.C95_roundtrip",
    "Wamp.Cbor.C95_any_order",
    "Wamp.Cbor.C95_connection",
    "Wamp.Cbor.C95_payload",
    "Wamp.Cbor.C95_nesting",
    "Wamp.Cbor.C95_not_utf8"
   ],
   "note": "About a byte-level model of the CBOR library with its documented defaults; no assumption about the codec."
  },
  {
   "property": "C96",
   "status": "proved",
   "theorems": [
    "Wamp.MsgPack.C96_faithful",
    "Wamp.MsgPack.C96_roundtrip",
    "Wamp.MsgPack.C96_any_order",
    "Wamp.MsgPack.C96_connection",
    "Wamp.MsgPack.C96_payload",
    "Wamp.MsgPack.C96_trailing"
   ],
   "note": "About a byte-level model of the MsgPack library; no assumption about the codec."
  },
  {
   "property": "C97",
   "status": "proved",
   "theorems": [
    "Wamp.Json.C97_faithful",
    "Wamp.Json.C97_roundtrip",
    "Wamp.Json.C97_connection",
    "Wamp.Json.C97_payload",
    "Wamp.Json.C97_trailing",
    "Wamp.Json.C97_not_utf8",
    "Wamp.Json.C97_not_finite",
    "Wamp.Json.C97_nesting"
   ],
   "note": "About a byte-level model of encoding/json and strconv (see trusted base)."
  },
  {
   "property": "C98",
   "status": "proved",
   "theorems": [
    "Wamp.C98_content",
    "Wamp.C98_distinct",
    "Wamp.C98_no_replay"
   ],
   "note": "C98_no_replay assumes that the MAC separates different texts."
  },
  {
   "property": "C99",
   "status": "partial",
   "theorems": [
    "Wamp.C99_other_session",
    "Wamp.C99_challenge_describes_partial"
   ],
   "note": "Refuted for the session ID: acceptor.go:144 draws a session ID for the challenge that is not the one of the WELCOME. Proved for authid, authrole and method."
  },
  {
   "property": "C100",
   "status": "partial",
   "theorems": [
    "Wamp.PathMatch.C100_matches_partial",
    "Wamp.PathMatch.C100_malformed",
    "Wamp.PathMatch.C100_no_crash",
    "Wamp.PathMatch.C100_splits_characters",
    "Wamp.PathMatch.C100_class_slash"
   ],
   "note": "Refuted where * is followed by ? or a negated class and the name has multi-byte characters (*?? matches a single euro sign), and for classes that contain '/'. Proved for the other patterns on ASCII names, and for patterns without ? and classes on all names; ill-formed patterns and absence of panics without restriction. path.Match is modelled from the library source."
  },
  {
   "property": "C101",
   "status": "partial",
   "theorems": [
    "Wamp.C101_accessors_partial",
    "Wamp.C101_result_zero",
    "Wamp.C101_received"
   ],
   "note": "Refuted for NewResultBinary with serializer 0, whose PayloadIsBinary is false. Binary payloads do not survive the wire (C14), so C101_received is about the other messages."
  },
  {
   "property": "C102",
   "status": "partial",
   "theorems": [
    "Wamp.Heap.C102_as_described",
    "Wamp.Heap.C102_undisturbed_partial",
    "Wamp.Heap.C102_only_serializer",
    "Wamp.Heap.C102_disturbed",
    "Wamp.Heap.C102_cryptosign_as_described",
    "Wamp.Heap.C102_cryptosign_shared",
    "Wamp.Heap.C102_cryptosign_keeps"
   ],
   "note": "Refuted: the binary constructors and NewCryptoSignAuthenticator write into the caller's map, so a second binary message built with the same options changes the first, and a second CryptoSign authenticator with the same map fails. Proved: nothing else is ever disturbed."
  },
  {
   "property": "C103",
   "status": "proved",
   "theorems": [
    "Wamp.Net.C103_up",
    "Wamp.Net.C103_down",
    "Wamp.Net.C103_broker_accepted"
   ],
   "note": "Messages within the limits of the session's serializer (C95-C97), without binary payload, below 2^24 bytes."
  },
  {
   "property": "C104",
   "status": "partial",
   "theorems": [
    "Wamp.Net.C104_answers_accepted_partial",
    "Wamp.Net.C104_tame_partial",
    "Wamp.Net.C104_invocation_partial"
   ],
   "note": "Same conditions as in C90 and C91, where the full statement is refuted."
  },
  {
   "property": "C105",
   "status": "proved",
   "theorems": [
    "Wamp.System.C105_events"
   ],
   "note": "Clients joined once; links between clients and router keep order (Spec/System)."
  },
  {
   "property": "C106",
   "status": "proved",
   "theorems": [
    "Wamp.System.C106_answers"
   ],
   "note": "A binary payload reaches only sessions with static serializer (C66)."
  },
  {
   "property": "C107",
   "status": "proved",
   "theorems": [
    "Wamp.System.C107_total_order"
   ],
   "note": ""
  },
  {
   "property": "C108",
   "status": "proved",
   "theorems": [
    "Wamp.Net.C108_events",
    "Wamp.Net.C108_answers",
    "Wamp.Net.C108_order",
    "Wamp.Net.C108_event",
    "Wamp.Net.C108_invocation",
    "Wamp.Net.C108_result"
   ],
   "note": "Messages within the limits of the session's serializer (C95-C97), without binary payload, below 2^24 bytes."
  },
  {
   "property": "C109",
   "status": "proved",
   "theorems": [
    "Wamp.System.C109_no_event_missed",
    "Wamp.System.C109_every_event",
    "Wamp.System.C109_exactly"
   ],
   "note": "At most 2^53 calls on the broker (IDs do not wrap). The client has not used the same request ID to subscribe to another topic."
  },
  {
   "property": "C110",
   "status": "proved",
   "theorems": [
    "Wamp.System.C110_stays_callable"
   ],
   "note": "Single invocation policy, as stated (shared registrations: C55 and C112). At most 2^53 calls on the dealer."
  },
  {
   "property": "C111",
   "status": "proved",
   "theorems": [
    "Wamp.System.C111_requests_answered",
    "Wamp.System.C111_removed_unanswered"
   ],
   "note": ""
  },
  {
   "property": "C112",
   "status": "partial",
   "theorems": [
    "Wamp.System.C112_calls_finish_partial",
    "Wamp.System.C112_clients_leave_partial",
    "Wamp.System.C112_exclusive_partial",
    "Wamp.System.C112_hangs"
   ],
   "note": "Proved when the clients that register are not removed, and, whoever is removed, when nobody registers a procedure twice or unregisters a shared one; in particular when no registrations are shared. Fails otherwise, with a witness: a client registers a shared procedure twice and leaves, another stays registered; the dealer keeps choosing the one that left, returns an error to the router and the caller gets nothing."
  },
  {
   "property": "C113",
   "status": "proved",
   "theorems": [
    "Wamp.System.C113_events_while_subscribed"
   ],
   "note": "At most 2^53 calls on the broker (IDs do not wrap). The client does not use one request ID to unsubscribe from two subscriptions, so that it is clear which one an UNSUBSCRIBED is about."
  },
  {
   "property": "C114",
   "status": "partial",
   "theorems": [
    "Wamp.System.C114_invocations_while_registered_partial",
    "Wamp.System.C114_shared_partial",
    "Wamp.System.C114_shared"
   ],
   "note": "Proved for registrations that may not be shared, and for shared ones as long as nobody registers one of the client's procedures twice or unregisters one that others still hold. Fails otherwise, with a witness: UNREGISTER does not remove the client from the callees as long as others stay registered, so it keeps getting INVOCATIONs."
  },
  {
   "property": "C115",
   "status": "proved",
   "theorems": [
    "Wamp.System.C115_subscriptions_agree"
   ],
   "note": "At most 2^53 calls on the broker (IDs do not wrap)."
  },
  {
   "property": "C116",
   "status": "proved",
   "theorems": [
    "Wamp.System.C116_settled_once"
   ],
   "note": "At most 2^53 calls on the broker (IDs do not wrap)."
  },
  {
   "property": "C117",
   "status": "proved",
   "theorems": [
    "Wamp.System.C117_unsubscribe_answered",
    "Wamp.System.C117_unregister_answered",
    "Wamp.System.C117_second_unanswered"
   ],
   "note": "At most 2^53 calls on the broker (IDs do not wrap)."
  },
  {
   "property": "C118",
   "status": "proved",
   "theorems": [
    "Wamp.Net.C118_requests_answered",
    "Wamp.Net.C118_settled_once",
    "Wamp.Net.C118_subscriptions_agree",
    "Wamp.Net.C118_events_while_subscribed",
    "Wamp.Net.C118_invocations_while_registered",
    "Wamp.Net.C118_every_event",
    "Wamp.Net.C118_exactly",
    "Wamp.Net.C118_calls_finish",
    "Wamp.Net.C118_calls_finish_leaving",
    "Wamp.Net.C118_calls_arrive",
    "Wamp.Net.C118_unsubscribe_answered",
    "Wamp.Net.C118_unregister_answered"
   ],
   "note": "At most 2^53 calls on broker and dealer; messages within the limits of the serializers."
  },
  {
   "property": "C119",
   "status": "proved",
   "theorems": [
    "Wamp.Site.C119_only_logged_in",
    "Wamp.Site.C119_publisher",
    "Wamp.Site.C119_caller",
    "Wamp.Site.C119_secret_known"
   ],
   "note": "At most 2^53 calls on the broker. Session IDs above 2^53 may be rounded in details read through JSON (GenerateID does not make such IDs, C03)."
  },
  {
   "property": "C120",
   "status": "proved",
   "theorems": [
    "Wamp.System.C120_registrations_agree",
    "Wamp.System.C120_owner",
    "Wamp.System.C120_shared",
    "Wamp.Net.C120_over_bytes"
   ],
   "note": "C120_owner assumes at most 2^53 calls on the dealer. C120_shared is the witness for the last sentence (see C54, C114)."
  },
  {
   "property": "C121",
   "status": "proved",
   "theorems": [
    "Wamp.System.C121_results_passed_on",
    "Wamp.System.C121_caller_gets_what_callee_yields",
    "Wamp.Net.C121_over_bytes"
   ],
   "note": "At most 2^53 calls on broker and dealer. The dealer does not check who yields, hence the hypothesis that only the callee answers (see C60)."
  },
  {
   "property": "C122",
   "status": "proved",
   "theorems": [
    "Wamp.Broker.C122_as_new"
   ],
   "note": "At most 2^53 calls, because IDs repeat after that."
  },
  {
   "property": "C123",
   "status": "partial",
   "theorems": [
    "Wamp.Dealer.C123_as_new_partial",
    "Wamp.Dealer.C123_stale_prefix",
    "Wamp.Dealer.C123_stale_call",
    "Wamp.Dealer.C123_stale_pattern"
   ],
   "note": "Refuted: a prefix once registered stays in the prefix tree for ever and hides wildcard registrations; a call is remembered for ever and is continued by a progressive CALL with the same session and request ID; a wildcard pattern unregistered by an outdated ID stays. Proved if no prefix pattern was registered, every UNREGISTER came from a member, and later calls do not refer to calls of the past."
  },
  {
   "property": "C124",
   "status": "proved",
   "theorems": [
    "Wamp.Formats.C124_written",
    "Wamp.Formats.C124_read",
    "Wamp.Formats.C124_understood",
    "Wamp.Formats.C124_trailing",
    "Wamp.Formats.C124_unambiguous",
    "Wamp.Formats.C124_text",
    "Wamp.Formats.C124_floats"
   ],
   "note": "The CBOR library itself is modelled from its documentation (see trusted base); tags are outside the model."
  },
  {
   "property": "C125",
   "status": "partial",
   "theorems": [
    "Wamp.Formats.C125_written",
    "Wamp.Formats.C125_read",
    "Wamp.Formats.C125_unambiguous",
    "Wamp.Formats.C125_understood_partial",
    "Wamp.Formats.C125_elements",
    "Wamp.Formats.C125_int16_refused"
   ],
   "note": "Refuted: a message type or an ID written as int 16 (0xd1), which the specification allows and other libraries do, makes Deserialize fail, because AsUInt64 has no case for int16. C125_understood_partial says exactly when an encoding is understood: if none of the elements of the message itself is written that way. C125_written, C125_read, C125_unambiguous hold without restriction."
  },
  {
   "property": "C126",
   "status": "proved",
   "theorems": [
    "Wamp.Formats.C126_written",
    "Wamp.Formats.C126_read",
    "Wamp.Formats.C126_understood",
    "Wamp.Formats.C126_trailing",
    "Wamp.Formats.C126_unambiguous",
    "Wamp.Formats.C126_numbers",
    "Wamp.Formats.C126_base64"
   ],
   "note": "encoding/json and strconv are modelled from their documentation (see trusted base)."
  },
  {
   "property": "C127",
   "status": "proved",
   "theorems": [
    "Wamp.Formats.C127_cbor",
    "Wamp.Formats.C127_msgpack",
    "Wamp.Formats.C127_json",
    "Wamp.Formats.C127_cbor_truncated",
    "Wamp.Formats.C127_msgpack_truncated",
    "Wamp.Formats.C127_json_truncated"
   ],
   "note": "the libraries behind the serializers are modelled from their documentation (see trusted base); MsgPack extension types are treated as errors by the model."
  },
  {
   "property": "C128",
   "status": "proved",
   "theorems": [
    "Wamp.Acceptor.C128_one_question",
    "Wamp.Acceptor.C128_refused",
    "Wamp.Acceptor.C128_question"
   ],
   "note": ""
  },
  {
   "property": "C129",
   "status": "proved",
   "theorems": [
    "Wamp.System.C129_parts_handed_on",
    "Wamp.System.C129_callee_gets_the_call",
    "Wamp.Net.C129_over_bytes"
   ],
   "note": "The final CALL of a progressive call, sent without progress, is not covered: it gets an invocation ID of its own (C61_final_call)."
  },
  {
   "property": "C130",
   "status": "proved",
   "theorems": [
    "Wamp.C130_keys",
    "Wamp.C130_client",
    "Wamp.C130_signature",
    "Wamp.C130_login"
   ],
   "note": "Assumes that Ed25519 accepts its own signatures (SigScheme) and that rand.Read succeeds."
  },
  {
   "property": "C131",
   "status": "proved",
   "theorems": [
    "Wamp.System.C131_broker_accepted",
    "Wamp.System.C131_answers_accepted",
    "Wamp.System.C131_invocations_accepted",
    "Wamp.System.C131_events",
    "Wamp.System.C131_answers",
    "Wamp.System.C131_total_order",
    "Wamp.System.C131_every_event",
    "Wamp.System.C131_exactly",
    "Wamp.System.C131_requests_answered",
    "Wamp.System.C131_events_while_subscribed",
    "Wamp.System.C131_settled_once",
    "Wamp.System.C131_stays_callable",
    "Wamp.System.C131_results_passed_on",
    "Wamp.System.C131_parts_handed_on",
    "Wamp.System.C131_subscriptions_agree",
    "Wamp.System.C131_registrations_agree",
    "Wamp.System.C131_owner"
   ],
   "note": "The router drops messages that are not for broker or dealer. A message that makes the dealer panic (C64) is not a possible move. C131_results_passed_on is for callers that use the library."
  },
  {
   "property": "C132",
   "status": "proved",
   "theorems": [
    "Wamp.Intruder.C132_agreement",
    "Wamp.Intruder.C132_sessions"
   ],
   "note": "The cryptographic assumptions are hypotheses: NoForgery, OnlyOwners, injective MAC, distinct nonces."
  },
  {
   "property": "C133",
   "status": "partial",
   "theorems": [
    "Wamp.Intruder.C133_replayed",
    "Wamp.Intruder.C133_signed_before_partial"
   ],
   "note": "Refuted: one signature of the user, over anything, opens any number of sessions at any number of acceptors. Proved: without one there is no session."
  },
  {
   "property": "C134",
   "status": "partial",
   "theorems": [
    "Wamp.Intruder.C134_any_router",
    "Wamp.Intruder.C134_joined_partial"
   ],
   "note": "Refuted: a WELCOME right after SendHello is accepted without any CHALLENGE, whatever the authenticator. Proved: if WELCOMEs are not made up, as over an authenticated connection, the session is one that an acceptor opened."
  },
  {
   "property": "C135",
   "status": "proved",
   "theorems": [
    "Wamp.Interop.C135_client_cra",
    "Wamp.Interop.C135_defaults",
    "Wamp.Interop.C135_router_cra",
    "Wamp.Interop.C135_client_cryptosign",
    "Wamp.Interop.C135_router_cryptosign",
    "Wamp.Interop.C135_client_ticket",
    "Wamp.Interop.C135_router_ticket"
   ],
   "note": "HMAC, PBKDF2 and Ed25519 are parameters."
  },
  {
   "property": "C136",
   "status": "proved",
   "theorems": [
    "Wamp.Secrets.C136_client_cra",
    "Wamp.Secrets.C136_client_cryptosign",
    "Wamp.Secrets.C136_router"
   ],
   "note": "Timing is not modelled."
  },
  {
   "property": "C137",
   "status": "proved",
   "theorems": [
    "Wamp.Net.C137_up",
    "Wamp.Net.C137_down",
    "Wamp.Net.C137_broker_accepted",
    "Wamp.Net.C137_answers_accepted",
    "Wamp.Net.C137_invocation_accepted",
    "Wamp.Net.C137_events",
    "Wamp.Net.C137_answers",
    "Wamp.Net.C137_order",
    "Wamp.Net.C137_requests_answered",
    "Wamp.Net.C137_settled_once",
    "Wamp.Net.C137_events_while_subscribed",
    "Wamp.Net.C137_every_event",
    "Wamp.Net.C137_exactly",
    "Wamp.Net.C137_subscriptions_agree",
    "Wamp.Net.C137_registrations_agree",
    "Wamp.Net.C137_owner",
    "Wamp.Net.C137_results",
    "Wamp.Net.C137_parts",
    "Wamp.Net.C137_calls_arrive"
   ],
   "note": "A frame that cannot be read is dropped and the connection kept; the code that reads sockets is the user's, not part of the library. What the router forwards must be within the limits of the receiver's serializer."
  },
  {
   "property": "C138",
   "status": "proved",
   "theorems": [
    "Wamp.Json.C138_float64",
    "Wamp.Json.C138_float32",
    "Wamp.Json.C138_read"
   ],
   "note": "strconv is modelled from its documentation (see trusted base)."
  },
  {
   "property": "C139",
   "status": "proved",
   "theorems": [
    "Wamp.Connect.C139_timing",
    "Wamp.Connect.C139_connects",
    "Wamp.Connect.C139_formats"
   ],
   "note": "The code between the library and the socket is the user's: Spec/Connect says what is expected of it."
  },
  {
   "property": "C140",
   "status": "partial",
   "theorems": [
    "Wamp.Injection.C140_injection",
    "Wamp.Injection.C140_forged",
    "Wamp.Injection.C140_fits_partial"
   ],
   "note": "Refuted by C140_injection and C140_forged; C140_fits_partial says exactly for which payloads it holds. With all frames below 2^24 bytes it is proved end to end (C103, C108, C118, C137)."
  },
  {
   "property": "C141",
   "status": "partial",
   "theorems": [
    "Wamp.Broker.C141_broker_state",
    "Wamp.Broker.C141_broker_partial",
    "Wamp.Broker.C141_broker_chance",
    "Wamp.Dealer.C141_dealer_partial",
    "Wamp.Dealer.C141_dealer_chance"
   ],
   "note": "Refuted by C141_broker_chance and C141_dealer_chance with the real path.Match; the other three say what holds for all executions."
  },
  {
   "property": "C142",
   "status": "proved",
   "theorems": [
    "Wamp.Mutex.C142_no_deadlock",
    "Wamp.Mutex.C142_calls_return",
    "Wamp.Mutex.C142_fair",
    "Wamp.Mutex.C142_exclusive"
   ],
   "note": ""
  },
  {
   "property": "C143",
   "status": "proved",
   "theorems": [
    "Wamp.Radix.C143_longest",
    "Wamp.Radix.C143_table"
   ],
   "note": "C143_table also says that the table of entries which Model/Router has in place of the tree gives the same answers, so that C71, C72 and the other claims about prefix patterns hold with the tree in its place. The library is not in the sandbox: Model/Radix follows its published algorithm."
  },
  {
   "property": "C144",
   "status": "partial",
   "theorems": [
    "Wamp.Broker.C144_broker",
    "Wamp.Broker.C144_broker_empty",
    "Wamp.Dealer.C144_dealer_partial",
    "Wamp.Dealer.C144_procedure_partial",
    "Wamp.Dealer.C144_calls_kept",
    "Wamp.Dealer.C144_unanswered_kept",
    "Wamp.Dealer.C144_patterns_kept",
    "Wamp.Dealer.C144_callees_kept",
    "Wamp.Session.C144_session_partial",
    "Wamp.Session.C144_requests_kept"
   ],
   "note": "Proved for the broker. False for the dealer, without bound: the IDs of answered calls (dealer.go:233 has no counterpart that deletes), calls whose callee left, prefix patterns (the result of the deletion is discarded, dealer.go:123 and 356) and the callee lists of shared registrations (UNREGISTER does not take the session off) are kept (C144_calls_kept, C144_unanswered_kept, C144_patterns_kept, C144_callees_kept). The _partial theorems say what the dealer does forget. A client session forgets calls, registrations, publications and invocations (C144_session_partial), but keeps the IDs of settled SUBSCRIBE, UNSUBSCRIBE and UNREGISTER requests (C144_requests_kept)."
  },
  {
   "property": "C145",
   "status": "proved",
   "theorems": [
    "Wamp.Session.C145_sequential",
    "Wamp.Session.C145_overlap"
   ],
   "note": "Linearizability. The condition that calls about the same request do not overlap is part of the claim: C145_overlap shows an execution without it (two RESULTs for one CALL received at the same time) that no order explains."
  },
  {
   "property": "C146",
   "status": "proved",
   "theorems": [
    "Wamp.OneFormat.C146_one_format",
    "Wamp.OneFormat.C146_refused"
   ],
   "note": "For peers that disagree about the serializer. A list read as a message has two to seven elements; the formats' first bytes of such lists are disjoint."
  },
  {
   "property": "C147",
   "status": "proved",
   "theorems": [
    "Wamp.Refusal.C147_refused",
    "Wamp.Refusal.C147_method",
    "Wamp.Refusal.C147_signature",
    "Wamp.Refusal.C147_any_abort"
   ],
   "note": "Of fmt.Sprintf with %v it is assumed only that it shows a string as it is."
  },
  {
   "property": "C148",
   "status": "proved",
   "theorems": [
    "Wamp.Broker.C148_publication"
   ],
   "note": "So other clients notice a publication only by a gap in the IDs they are given."
  },
  {
   "property": "C149",
   "status": "proved",
   "theorems": [
    "Wamp.Dealer.C149_call"
   ],
   "note": "Round-robin registrations are excluded because there a call is meant to change whose turn it is."
  },
  {
   "property": "C150",
   "status": "partial",
   "theorems": [
    "Wamp.Cbor.C150_pair_partial",
    "Wamp.Cbor.C150_nil_refused",
    "Wamp.Cbor.C150_payload_crashes"
   ],
   "note": "Refuted for nil args or kwargs (DecodeCBOR refuses what EncodeCBOR wrote) and for SerializePayload without kwargs (DecodeCBOR panics); proved when both are non-nil."
  },
  {
   "property": "C151",
   "status": "proved",
   "theorems": [
    "Wamp.System.C151_system",
    "Wamp.Broker.C151_broker",
    "Wamp.Dealer.C151_dealer"
   ],
   "note": "That contents arrive unchanged is C66, C70, C105 and C106. The serializer ID of a binary payload is not content: it appears in details."
  },
  {
   "property": "C152",
   "status": "proved",
   "theorems": [
    "Wamp.C152_hello",
    "Wamp.C152_welcome",
    "Wamp.C152_challenge"
   ],
   "note": ""
  },
  {
   "property": "C153",
   "status": "proved",
   "theorems": [
    "Wamp.System.C153_system",
    "Wamp.Broker.C153_broker",
    "Wamp.Dealer.C153_dealer"
   ],
   "note": ""
  },
  {
   "property": "C154",
   "status": "partial",
   "theorems": [
    "Wamp.ErrorText.C154_elements_partial",
    "Wamp.ErrorText.C154_length_partial",
    "Wamp.ErrorText.C154_methods",
    "Wamp.ErrorText.C154_outer",
    "Wamp.ErrorText.C154_results",
    "Wamp.ErrorText.C154_refuted",
    "Wamp.ErrorText.C154_length_refuted",
    "Wamp.ErrorText.C154_unknown_refuted"
   ],
   "note": "Proved except for the beginnings of the errors about UNSUBSCRIBE, REGISTER and INVOCATION (C154_refuted), the least length named for HELLO and AUTHENTICATE (C154_length_refuted), and the code in 'unknown message' (C154_unknown_refuted). C154_results: without the texts the results are those of the rest of the model."
  },
  {
   "property": "C155",
   "status": "partial",
   "theorems": [
    "Wamp.RouterText.C155_broker",
    "Wamp.RouterText.C155_dealer_partial",
    "Wamp.RouterText.C155_binary_refuted",
    "Wamp.RouterText.C155_subscription_refuted",
    "Wamp.RouterText.C155_yield_refuted"
   ],
   "note": "Proved except for the three details: the specification has the broker's IDs in binary (C155_binary_refuted), reads 'non-existent subscription' as one the session does not hold (C155_subscription_refuted) and 'no pending calls for session' as a statement on the invocation (C155_yield_refuted). For the broker the texts are exactly those that state a fact."
  },
  {
   "property": "C156",
   "status": "partial",
   "theorems": [
    "Wamp.SessionText.C156_send",
    "Wamp.SessionText.C156_receive_partial",
    "Wamp.SessionText.C156_bytes",
    "Wamp.SessionText.C156_type_refuted",
    "Wamp.SessionText.C156_settled_refuted"
   ],
   "note": "Proved, with equivalences in both directions, except for the two details: the specification has the text about other ERRORs without the type (C156_type_refuted), and counts a request to unregister as outstanding for the text about requests until an ERROR for it is received (C156_settled_refuted)."
  },
  {
   "property": "C157",
   "status": "partial",
   "theorems": [
    "Wamp.HandshakeText.C157_acceptor_partial",
    "Wamp.HandshakeText.C157_pubkey_refuted",
    "Wamp.HandshakeText.C157_joiner",
    "Wamp.HandshakeText.C157_bytes",
    "Wamp.HandshakeText.C157_other",
    "Wamp.HandshakeText.C157_client",
    "Wamp.HandshakeText.C157_keys"
   ],
   "note": "Proved except for the type of a public key that is no text (C157_pubkey_refuted). For the acceptor: every error has a text and the text states a fact; for joiners, client authenticators and keys the texts are exactly those that do. The text for a private key of a wrong length does not exist: ed25519.NewKeyFromSeed panics (C29)."
  },
  {
   "property": "C158",
   "status": "proved",
   "theorems": [
    "Wamp.FormatText.C158_send",
    "Wamp.FormatText.C158_receive",
    "Wamp.FormatText.C158_deserialize",
    "Wamp.FormatText.C158_serialize",
    "Wamp.FormatText.C158_decode_cbor",
    "Wamp.FormatText.C158_signatures"
   ],
   "note": "The texts are exactly those that state a fact, in both directions; for SendHandshake with a size that is not positive there may be a crash instead of an error (C07)."
  },
  {
   "property": "C159",
   "status": "partial",
   "theorems": [
    "Wamp.SyncMap.C159_map_partial",
    "Wamp.SyncMap.C159_concrete",
    "Wamp.SyncMap.C159_session",
    "Wamp.SyncMap.C159_nil_refuted"
   ],
   "note": "Proved without condition for types that are no interfaces (C159_concrete), like all those in this library, and for interface types as long as no nil is stored (C159_map_partial). sync.Map itself is a map with atomic operations by assumption."
  },
  {
   "property": "C160",
   "status": "partial",
   "theorems": [
    "Wamp.Broker.C160_broker",
    "Wamp.Dealer.C160_dealer_partial",
    "Wamp.Dealer.C160_yield",
    "Wamp.Dealer.C160_call_refuted",
    "Wamp.Acceptor.C160_acceptor",
    "Wamp.Joiner.C160_joiner"
   ],
   "note": "Without condition for the broker, acceptor and joiner; for the dealer, C160_dealer_partial covers every refusal except of CALL and YIELD, C160_yield says what a refused YIELD does and C160_call_refuted shows that a refused CALL does matter. Sessions are C48. `Receive` where the answer cannot be serialized is not covered."
  },
  {
   "property": "C161",
   "status": "proved",
   "theorems": [
    "Wamp.System.C161_system",
    "Wamp.Broker.C161_broker",
    "Wamp.Dealer.C161_dealer",
    "Wamp.Uris.C161_prefix"
   ],
   "note": "The topic or procedure that is disclosed in EVENT and INVOCATION details is renamed too. Error URIs are not."
  },
  {
   "property": "C162",
   "status": "proved",
   "theorems": [
    "Wamp.System.C162_system",
    "Wamp.Session.C162_session",
    "Wamp.Broker.C162_broker",
    "Wamp.Dealer.C162_dealer"
   ],
   "note": "IDs that the dealer chooses for INVOCATION are not renumbered. The broker would do the same even if different requests got the same ID; the dealer would not (an example)."
  },
  {
   "property": "C163",
   "status": "proved",
   "theorems": [
    "Wamp.System.C163_system",
    "Wamp.Broker.C163_broker",
    "Wamp.Dealer.C163_dealer"
   ],
   "note": "In particular the broker and the dealer do not authorize anybody and do not separate realms: a router must have one broker and one dealer for each realm. Whether the serializer of a session is static decides the form of payloads and is kept."
  },
  {
   "property": "C164",
   "status": "partial",
   "theorems": [
    "Wamp.Broker.C164_again",
    "Wamp.Broker.C164_undo_partial",
    "Wamp.Broker.C164_leave",
    "Wamp.Broker.C164_undo_refuted"
   ],
   "note": "Proved but for patterns: who subscribes to a prefix or wildcard pattern that others are subscribed to and unsubscribes takes the pattern out of the table for the others too (C72), so `C164_undo_partial` excludes them and `C164_undo_refuted` shows why."
  },
  {
   "property": "C165",
   "status": "partial",
   "theorems": [
    "Wamp.Dealer.C165_leave_partial",
    "Wamp.Dealer.C165_leave_refuted"
   ],
   "note": "Proved for the histories in which nobody registered twice for a shared procedure or gave up a registration shared with others (`Tame`, as in C54); the session may share registrations when it leaves. `C165_leave_refuted` shows that it is false otherwise: removing the session may panic where unregistering first does not."
  },
  {
   "property": "C166",
   "status": "proved",
   "theorems": [
    "Wamp.Broker.C166_listener",
    "Wamp.Broker.C166_listener_refuted",
    "Wamp.Broker.C166_alone_refuted"
   ],
   "note": "The two restrictions are needed: `C166_listener_refuted` (patterns, the defect of C72) and `C166_alone_refuted` (nobody else is subscribed)."
  },
  {
   "property": "C167",
   "status": "proved",
   "theorems": [
    "Wamp.System.C167_onlooker",
    "Wamp.System.C167_pattern_refuted"
   ],
   "note": "The router is that of C89. That the topics are no patterns is needed (`C167_pattern_refuted`, the defect of C72), and so is that somebody else stays subscribed (C166_alone_refuted). The listener sends no CALL, YIELD, ERROR, PUBLISH, REGISTER or UNREGISTER."
  },
  {
   "property": "C168",
   "status": "proved",
   "theorems": [
    "Wamp.Sha256.C168_signature",
    "Wamp.Sha256.C168_derived",
    "Wamp.Sha256.C168_iterations",
    "Wamp.Sha256.C168_shorter"
   ],
   "note": "SHA-256, HMAC and PBKDF2 are computed (`Model/Sha256.lean`); the model reproduces the published test values (`Conformance/Sha256.lean`). Negative key lengths make DeriveWAMPCRAKey panic (C37, C40)."
  },
  {
   "property": "C169",
   "status": "partial",
   "theorems": [
    "Wamp.Sha256.C169_secrets_partial",
    "Wamp.Sha256.C169_login_partial",
    "Wamp.Sha256.C169_login_salted_partial",
    "Wamp.Sha256.C169_salted_keys",
    "Wamp.Sha256.C169_interchangeable",
    "Wamp.Sha256.C169_secrets_refuted"
   ],
   "note": "False as it stands: zero bytes at the end of a secret do not matter, and a secret of more than 64 bytes can be replaced by its SHA-256 (`C169_secrets_refuted`); such secrets are interchangeable everywhere (`C169_interchangeable`). For all others it is proved, with an exact condition (`C169_secrets_partial`), also for a whole login (`C169_login_partial`) and for one with a salted secret (`C169_login_salted_partial`), where keys of at most 48 bytes have to be equal (`C169_salted_keys`). That SHA-256 has no collisions cannot be proved."
  },
  {
   "property": "C170",
   "status": "proved",
   "theorems": [
    "Wamp.Ed25519.C170_sizes",
    "Wamp.Ed25519.C170_answer",
    "Wamp.Ed25519.C170_canonical",
    "Wamp.Ed25519.C170_scheme"
   ],
   "note": "SHA-512 and Ed25519 are computed (`Model/Ed25519.lean`); the model reproduces the values of RFC 8032 and of auth/cryptosign_test.go (`Conformance/Ed25519.lean`). That honest signatures verify for all keys needs the group law of the curve and is not proved; `C170_scheme` shows that it is all that is missing for the assumption of C26 and C42."
  },
  {
   "property": "C171",
   "status": "proved",
   "theorems": [
    "Wamp.Ed25519.C171_verify",
    "Wamp.Ed25519.C171_anybody",
    "Wamp.Ed25519.C171_login"
   ],
   "note": "A weakness rather than a feature: Go's Ed25519 does not refuse points of small order, and neither the acceptor nor VerifyCryptoSignSignature checks the key."
  }
 ]
}