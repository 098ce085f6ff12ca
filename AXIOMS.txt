Wamp.C01_nextID_closed_form: propext, Quot.sound
Wamp.Lock.C02_nextID_concurrent: propext, Classical.choice, Quot.sound
Wamp.C03_generateID_zero: propext
Wamp.C03_generateID_partial: propext, Quot.sound
Wamp.RawSocket.C04_header_roundtrip: propext, Quot.sound
Wamp.RawSocket.C04_header_receive_send: propext, Quot.sound
Wamp.RawSocket.C04_int_to_bytes: propext, Quot.sound
Wamp.RawSocket.C04_bytes_to_int: propext, Classical.choice, Quot.sound
Wamp.RawSocket.C05_max_length_lost: propext, Classical.choice, Quot.sound
Wamp.RawSocket.C05_announced_lengths_partial: propext, Classical.choice, Quot.sound
Wamp.RawSocket.C06_handshake_roundtrip: propext, Classical.choice, Quot.sound
Wamp.RawSocket.C07_handshake_sizes_partial: propext, Classical.choice, Quot.sound
Wamp.RawSocket.C07_nonpositive_size_crashes: propext, Quot.sound
Wamp.RawSocket.C08_receive_handshake: propext, Classical.choice, Quot.sound
Wamp.C09_int16_rejected: propext
Wamp.C09_asUInt64_partial: propext
Wamp.C10_asInt: propext, Classical.choice, Quot.sound
Wamp.C22_hex_base64: propext, Classical.choice, Quot.sound
Wamp.Lock.C83_mutex_atomic: propext, Quot.sound
Wamp.Dealer.C83_dealer: propext, Classical.choice, Quot.sound
Wamp.Dealer.C83_answers: propext, Classical.choice, Quot.sound
Wamp.Broker.C83_broker: propext, Classical.choice, Quot.sound
Wamp.C11_parse_iff_layout: propext, Classical.choice, Quot.sound
Wamp.C12_parser_crashes: propext, Classical.choice, Quot.sound
Wamp.Cbor.C12_cbor_bytes: propext, Classical.choice, Quot.sound
Wamp.MsgPack.C12_msgpack_bytes: propext, Classical.choice, Quot.sound
Wamp.Json.C12_json_bytes: propext, Classical.choice, Quot.sound
Wamp.C12_panics_exactly_partial: propext, Classical.choice, Quot.sound
Wamp.C13_dispatch: propext, Classical.choice, Quot.sound
Wamp.C14_roundtrip_partial: propext, Classical.choice, Quot.sound
Wamp.C14_lost_messages: propext, Classical.choice, Quot.sound
Wamp.C15_json_ids: propext, Quot.sound
Wamp.C16_marshal_layout: propext, Classical.choice, Quot.sound
Wamp.C17_constructors_non_nil: propext, Classical.choice, Quot.sound
Wamp.C18_payload_roundtrip: propext, Quot.sound
Wamp.C19_empty_payload_lost: propext
Wamp.C19_empty_only_partial: propext
Wamp.C20_raw_payload: propext, Classical.choice, Quot.sound
Wamp.C21_payload_decode: propext, Quot.sound
Wamp.C21_decodeCBOR_crashes: propext, Quot.sound
Wamp.C21_decodeCBOR_partial: propext, Quot.sound
Wamp.C23_cra_completeness: propext, Classical.choice, Quot.sound
Wamp.C24_cra_soundness: propext
Wamp.C25_same_cra_key: propext, Classical.choice, Quot.sound
Wamp.C25_numbers_survive: propext, Classical.choice, Quot.sound
Wamp.C26_cryptosign_completeness: propext, Quot.sound
Wamp.C27_cryptosign_soundness: propext, Classical.choice, Quot.sound
Wamp.C28_anonymous_not_allowed: propext, Classical.choice, Quot.sound
Wamp.C28_select_partial: propext, Classical.choice, Quot.sound
Wamp.Acceptor.C28_refused: propext, Classical.choice, Quot.sound
Wamp.C29_wrong_length_crashes: propext, Classical.choice, Quot.sound
Wamp.C29_non_string_pubkey_kept: propext, Classical.choice, Quot.sound
Wamp.C29_cryptosign_partial: propext, Classical.choice, Quot.sound
Wamp.Acceptor.C30_welcome_approved: propext, Classical.choice, Quot.sound
Wamp.Acceptor.C30_default_only_anonymous: propext, Classical.choice, Quot.sound
Wamp.Acceptor.C31_cra_binding: propext, Classical.choice, Quot.sound
Wamp.Acceptor.C32_replay_accepted: propext, Classical.choice, Quot.sound
Wamp.Acceptor.C32_cryptosign_partial: propext, Classical.choice, Quot.sound
Wamp.Acceptor.C33_nothing_after_welcome: propext, Classical.choice, Quot.sound
Wamp.Acceptor.C34_details_agree: propext, Classical.choice, Quot.sound
Wamp.Acceptor.C35_authenticate_after_challenge: propext, Classical.choice, Quot.sound
Wamp.Acceptor.C36_retry_succeeds: propext, Classical.choice, Quot.sound
Wamp.Acceptor.C36_no_new_hello_partial: propext, Classical.choice, Quot.sound
Wamp.Acceptor.C37_crashes: propext, Classical.choice, Quot.sound
Wamp.Acceptor.C37_no_crash_partial: propext, Classical.choice, Quot.sound
Wamp.Joiner.C38_only_when_due: propext, Classical.choice, Quot.sound
Wamp.Joiner.C39_details: propext, Classical.choice, Quot.sound
Wamp.Joiner.C40_router_crashes_joiner: propext, Classical.choice, Quot.sound
Wamp.Joiner.C40_crashes_exactly_partial: propext, Classical.choice, Quot.sound
Wamp.Joiner.C41_welcome_after_abort: propext, Classical.choice, Quot.sound
Wamp.Joiner.C41_abort_is_error_partial: propext, Classical.choice, Quot.sound
Wamp.Joiner.C41_no_session_partial: propext, Classical.choice, Quot.sound
Wamp.Handshake.C42_honest_login: propext, Classical.choice, Quot.sound
Wamp.Handshake.C42_cra_responses: propext, Classical.choice, Quot.sound
Wamp.Handshake.C42_cbor: propext, Classical.choice, Quot.sound
Wamp.Handshake.C42_msgpack: propext, Classical.choice, Quot.sound
Wamp.Handshake.C42_json: propext, Classical.choice, Quot.sound
Wamp.Session.C43_accepts_partial: propext, Classical.choice, Quot.sound
Wamp.Session.C43_other_kinds: propext, Classical.choice, Quot.sound
Wamp.Session.C43_settled_but_accepted: propext, Classical.choice, Quot.sound
Wamp.Session.C44_one_answer_per_call: propext, Classical.choice, Quot.sound
Wamp.Session.C45_one_answer_concurrently: propext, Classical.choice, Quot.sound
Wamp.Session.C46_two_results: propext, Classical.choice, Quot.sound
Wamp.Session.C46_one_answer_concurrently_partial: propext, Classical.choice, Quot.sound
Wamp.Session.C47_settled_twice: propext, Classical.choice, Quot.sound
Wamp.Session.C47_errors_partial: propext, Classical.choice, Quot.sound
Wamp.Session.C48_failed_call_no_effect: propext, Classical.choice, Quot.sound
Wamp.Session.C48_bad_bytes_no_effect: propext, Classical.choice, Quot.sound
Wamp.Session.C49_kinds_independent: propext, Classical.choice, Quot.sound
Wamp.Session.C50_only_confirmed: propext, Classical.choice, Quot.sound
Wamp.Broker.C70_exact_delivery: propext, Classical.choice, Quot.sound
Wamp.Broker.C71_other_policy: propext, Classical.choice, Quot.sound
Wamp.Broker.C71_recipients_partial: propext, Classical.choice, Quot.sound
Wamp.Broker.C72_left_behind: propext, Classical.choice, Quot.sound
Wamp.Broker.C72_patterns_partial: propext, Classical.choice, Quot.sound
Wamp.Broker.C73_one_subscription: propext, Classical.choice, Quot.sound
Wamp.Broker.C73_selected_partial: propext, Classical.choice, Quot.sound
Wamp.Broker.C74_publisher_included: propext, Classical.choice, Quot.sound
Wamp.Broker.C74_publisher_partial: propext, Classical.choice, Quot.sound
Wamp.Broker.C75_acknowledge: propext, Classical.choice, Quot.sound
Wamp.Broker.C76_no_panic: propext, Classical.choice, Quot.sound
Wamp.Broker.C77_subscription_ids: propext, Classical.choice, Quot.sound
Wamp.Broker.C78_unsubscribe: propext, Classical.choice, Quot.sound
Wamp.Broker.C78_no_more_events: propext, Classical.choice, Quot.sound
Wamp.Broker.C78_others_keep: propext, Classical.choice, Quot.sound
Wamp.Broker.C79_not_attached: propext, Classical.choice, Quot.sound
Wamp.Broker.C80_disclosure: propext, Classical.choice, Quot.sound
Wamp.Broker.C81_remove: propext, Classical.choice, Quot.sound
Wamp.Broker.C81_no_more_events: propext, Classical.choice, Quot.sound
Wamp.Broker.C82_has_subscription: propext, Classical.choice, Quot.sound
Wamp.Dealer.C51_ids: propext, Classical.choice, Quot.sound
Wamp.Dealer.C51_fresh: propext, Classical.choice, Quot.sound
Wamp.Dealer.C51_register: propext, Classical.choice, Quot.sound
Wamp.Dealer.C52_register: propext, Classical.choice, Quot.sound
Wamp.Dealer.C52_call: propext, Classical.choice, Quot.sound
Wamp.Dealer.C52_only_owner: propext, Classical.choice, Quot.sound
Wamp.Dealer.C52_no_owner: propext, Classical.choice, Quot.sound
Wamp.Dealer.C53_attached: propext, Classical.choice, Quot.sound
Wamp.Dealer.C54_unregistered: propext, Classical.choice, Quot.sound
Wamp.Dealer.C54_registered_partial: propext, Classical.choice, Quot.sound
Wamp.Dealer.C54_members: propext, Classical.choice, Quot.sound
Wamp.Dealer.C55_called: propext, Classical.choice, Quot.sound
Wamp.Dealer.C55_policies: propext, Classical.choice, Quot.sound
Wamp.Dealer.C55_roundrobin: propext, Classical.choice, Quot.sound
Wamp.Dealer.C56_once: propext, Classical.choice, Quot.sound
Wamp.Dealer.C56_refused: propext, Classical.choice, Quot.sound
Wamp.Dealer.C57_answers: propext, Classical.choice, Quot.sound
Wamp.Dealer.C58_result: propext, Classical.choice, Quot.sound
Wamp.Dealer.C58_error: propext, Classical.choice, Quot.sound
Wamp.Dealer.C59_progress: propext, Classical.choice, Quot.sound
Wamp.Dealer.C59_ends: propext, Classical.choice, Quot.sound
Wamp.Dealer.C60_stranger: propext, Classical.choice, Quot.sound
Wamp.Dealer.C60_outstanding_partial: propext, Classical.choice, Quot.sound
Wamp.Dealer.C61_final_call: propext, Classical.choice, Quot.sound
Wamp.Dealer.C61_other_callee: propext, Classical.choice, Quot.sound
Wamp.Dealer.C61_same_id_partial: propext, Classical.choice, Quot.sound
Wamp.Dealer.C62_no_answer: propext, Classical.choice, Quot.sound
Wamp.Dealer.C62_open_partial: propext, Classical.choice, Quot.sound
Wamp.Dealer.C65_disclosure: propext, Classical.choice, Quot.sound
Wamp.Dealer.C63_old_handle: propext, Classical.choice, Quot.sound
Wamp.Dealer.C63_stranger: propext, Classical.choice, Quot.sound
Wamp.Dealer.C63_members_partial: propext, Classical.choice, Quot.sound
Wamp.Dealer.C64_unregister: propext, Classical.choice, Quot.sound
Wamp.Dealer.C64_remove: propext, Classical.choice, Quot.sound
Wamp.Dealer.C64_call: propext, Classical.choice, Quot.sound
Wamp.Dealer.C64_disclose: propext, Classical.choice, Quot.sound
Wamp.Dealer.C64_panics_exactly_partial: propext, Classical.choice, Quot.sound
Wamp.Dealer.C66_lost: propext, Classical.choice, Quot.sound
Wamp.Dealer.C66_payload_partial: propext, Classical.choice, Quot.sound
Wamp.Dealer.C67_broken: propext, Classical.choice, Quot.sound
Wamp.Dealer.C67_remove: propext, Classical.choice, Quot.sound
Wamp.Dealer.C67_calls: propext, Classical.choice, Quot.sound
Wamp.Dealer.C67_others_partial: propext, Classical.choice, Quot.sound
Wamp.Dealer.C67_succeeds_partial: propext, Classical.choice, Quot.sound
Wamp.Dealer.C68_shadowed: propext, Classical.choice, Quot.sound
Wamp.Dealer.C68_longest_partial: propext, Classical.choice, Quot.sound
Wamp.Dealer.C69_lost: propext, Classical.choice, Quot.sound
Wamp.Dealer.C69_wildcard_partial: propext, Classical.choice, Quot.sound
Wamp.Dealer.C84_yes_partial: propext, Classical.choice, Quot.sound
Wamp.Dealer.C84_exact: propext, Classical.choice, Quot.sound
Wamp.Dealer.C85_stale: propext, Classical.choice, Quot.sound
Wamp.Dealer.C85_answerable_partial: propext, Classical.choice, Quot.sound
Wamp.RawSocket.C86_stream: propext, Quot.sound
Wamp.RawSocket.C86_whole: propext, Quot.sound
Wamp.RawSocket.C86_limit: propext, Quot.sound
Wamp.C87_zone: propext, Classical.choice, Quot.sound
Wamp.C87_timestamp: propext, Classical.choice, Quot.sound
Wamp.C88_int16_rejected: propext
Wamp.C88_asFloat64_partial: propext, Classical.choice, Quot.sound
Wamp.System.C89_broker_accepted: propext, Classical.choice, Quot.sound
Wamp.System.C89_reused_id: propext, Classical.choice, Quot.sound
Wamp.System.C90_progressive_rejected: propext, Classical.choice, Quot.sound
Wamp.System.C90_answers_accepted_partial: propext, Classical.choice, Quot.sound
Wamp.System.C91_invoked_after_unregistered: propext, Classical.choice, Quot.sound
Wamp.System.C91_unregistered_twice: propext, Classical.choice, Quot.sound
Wamp.System.C91_simple_partial: propext, Classical.choice, Quot.sound
Wamp.System.C91_tame_partial: propext, Classical.choice, Quot.sound
Wamp.System.C91_single_partial: propext, Classical.choice, Quot.sound
Wamp.Wildcard.C92_not_wamp: propext, Quot.sound
Wamp.Wildcard.C92_crosses_dots: propext, Classical.choice, Quot.sound
Wamp.Wildcard.C92_plain_partial: propext, Quot.sound
Wamp.Wildcard.C92_stars_partial: propext, Quot.sound
Wamp.Wildcard.C92_event: propext, Classical.choice, Quot.sound
Wamp.Wildcard.C92_call: propext, Classical.choice, Quot.sound
Wamp.PathMatch.C92_documented: propext, Classical.choice, Quot.sound
Wamp.PathMatch.C92_code_partial: propext, Classical.choice, Quot.sound
Wamp.C93_known_serializers: propext
Wamp.C93_unknown_serializers: propext, Quot.sound
Wamp.RawSocket.C94_connection: propext, Classical.choice, Quot.sound
Wamp.RawSocket.C94_all: propext, Classical.choice, Quot.sound
Wamp.Cbor.C95_faithful: propext, Quot.sound
Wamp.Cbor.C95_roundtrip: propext, Classical.choice, Quot.sound
Wamp.Cbor.C95_any_order: propext, Quot.sound
Wamp.Cbor.C95_connection: propext, Classical.choice, Quot.sound
Wamp.Cbor.C95_payload: propext, Quot.sound
Wamp.Cbor.C95_nesting: propext, Classical.choice, Quot.sound
Wamp.Cbor.C95_not_utf8: propext, Classical.choice, Quot.sound
Wamp.MsgPack.C96_faithful: propext, Quot.sound
Wamp.MsgPack.C96_roundtrip: propext, Classical.choice, Quot.sound
Wamp.MsgPack.C96_any_order: propext, Quot.sound
Wamp.MsgPack.C96_connection: propext, Classical.choice, Quot.sound
Wamp.MsgPack.C96_payload: propext, Quot.sound
Wamp.MsgPack.C96_trailing: propext, Classical.choice, Quot.sound
Wamp.Json.C97_faithful: propext, Classical.choice, Quot.sound
Wamp.Json.C97_roundtrip: propext, Classical.choice, Quot.sound
Wamp.Json.C97_connection: propext, Classical.choice, Quot.sound
Wamp.Json.C97_payload: propext, Classical.choice, Quot.sound
Wamp.Json.C97_trailing: propext, Classical.choice, Quot.sound
Wamp.Json.C97_not_utf8: propext, Classical.choice, Quot.sound
Wamp.Json.C97_not_finite: propext, Classical.choice, Quot.sound
Wamp.Json.C97_nesting: propext, Classical.choice, Quot.sound
Wamp.C98_content: propext, Classical.choice, Quot.sound
Wamp.C98_distinct: propext, Classical.choice, Quot.sound
Wamp.C98_no_replay: propext, Classical.choice, Quot.sound
Wamp.C99_other_session: propext, Classical.choice, Quot.sound
Wamp.C99_challenge_describes_partial: propext, Classical.choice, Quot.sound
Wamp.PathMatch.C100_matches_partial: propext, Classical.choice, Quot.sound
Wamp.PathMatch.C100_malformed: propext, Classical.choice, Quot.sound
Wamp.PathMatch.C100_no_crash: propext, Classical.choice, Quot.sound
Wamp.PathMatch.C100_splits_characters: propext, Classical.choice, Quot.sound
Wamp.PathMatch.C100_class_slash: propext, Classical.choice, Quot.sound
Wamp.C101_accessors_partial: propext, Classical.choice, Quot.sound
Wamp.C101_result_zero: propext, Classical.choice, Quot.sound
Wamp.C101_received: propext, Classical.choice, Quot.sound
Wamp.Heap.C102_as_described: propext, Classical.choice, Quot.sound
Wamp.Heap.C102_undisturbed_partial: propext, Classical.choice, Quot.sound
Wamp.Heap.C102_only_serializer: propext, Classical.choice, Quot.sound
Wamp.Heap.C102_disturbed: propext, Classical.choice, Quot.sound
Wamp.Heap.C102_cryptosign_as_described: propext, Classical.choice, Quot.sound
Wamp.Heap.C102_cryptosign_shared: propext, Classical.choice, Quot.sound
Wamp.Heap.C102_cryptosign_keeps: propext, Classical.choice, Quot.sound
Wamp.Net.C103_up: propext, Classical.choice, Quot.sound
Wamp.Net.C103_down: propext, Classical.choice, Quot.sound
Wamp.Net.C103_broker_accepted: propext, Classical.choice, Quot.sound
Wamp.Net.C104_answers_accepted_partial: propext, Classical.choice, Quot.sound
Wamp.Net.C104_tame_partial: propext, Classical.choice, Quot.sound
Wamp.Net.C104_invocation_partial: propext, Classical.choice, Quot.sound
Wamp.System.C105_events: propext, Classical.choice, Quot.sound
Wamp.System.C106_answers: propext, Classical.choice, Quot.sound
Wamp.System.C107_total_order: propext, Classical.choice, Quot.sound
Wamp.Net.C108_events: propext, Classical.choice, Quot.sound
Wamp.Net.C108_answers: propext, Classical.choice, Quot.sound
Wamp.Net.C108_order: propext, Classical.choice, Quot.sound
Wamp.Net.C108_event: propext, Classical.choice, Quot.sound
Wamp.Net.C108_invocation: propext, Classical.choice, Quot.sound
Wamp.Net.C108_result: propext, Classical.choice, Quot.sound
Wamp.System.C109_no_event_missed: propext, Classical.choice, Quot.sound
Wamp.System.C109_every_event: propext, Classical.choice, Quot.sound
Wamp.System.C109_exactly: propext, Classical.choice, Quot.sound
Wamp.System.C110_stays_callable: propext, Classical.choice, Quot.sound
Wamp.System.C111_requests_answered: propext, Classical.choice, Quot.sound
Wamp.System.C111_removed_unanswered: propext, Classical.choice, Quot.sound
Wamp.System.C112_calls_finish_partial: propext, Classical.choice, Quot.sound
Wamp.System.C112_clients_leave_partial: propext, Classical.choice, Quot.sound
Wamp.System.C112_exclusive_partial: propext, Classical.choice, Quot.sound
Wamp.System.C112_hangs: propext, Classical.choice, Quot.sound
Wamp.System.C113_events_while_subscribed: propext, Classical.choice, Quot.sound
Wamp.System.C114_invocations_while_registered_partial: propext, Classical.choice, Quot.sound
Wamp.System.C114_shared_partial: propext, Classical.choice, Quot.sound
Wamp.System.C114_shared: propext, Classical.choice, Quot.sound
Wamp.System.C115_subscriptions_agree: propext, Classical.choice, Quot.sound
Wamp.System.C116_settled_once: propext, Classical.choice, Quot.sound
Wamp.System.C117_unsubscribe_answered: propext, Classical.choice, Quot.sound
Wamp.System.C117_unregister_answered: propext, Classical.choice, Quot.sound
Wamp.System.C117_second_unanswered: propext, Classical.choice, Quot.sound
Wamp.Net.C118_requests_answered: propext, Classical.choice, Quot.sound
Wamp.Net.C118_settled_once: propext, Classical.choice, Quot.sound
Wamp.Net.C118_subscriptions_agree: propext, Classical.choice, Quot.sound
Wamp.Net.C118_events_while_subscribed: propext, Classical.choice, Quot.sound
Wamp.Net.C118_invocations_while_registered: propext, Classical.choice, Quot.sound
Wamp.Net.C118_every_event: propext, Classical.choice, Quot.sound
Wamp.Net.C118_exactly: propext, Classical.choice, Quot.sound
Wamp.Net.C118_calls_finish: propext, Classical.choice, Quot.sound
Wamp.Net.C118_calls_finish_leaving: propext, Classical.choice, Quot.sound
Wamp.Net.C118_calls_arrive: propext, Classical.choice, Quot.sound
Wamp.Net.C118_unsubscribe_answered: propext, Classical.choice, Quot.sound
Wamp.Net.C118_unregister_answered: propext, Classical.choice, Quot.sound
Wamp.Site.C119_only_logged_in: propext, Classical.choice, Quot.sound
Wamp.Site.C119_publisher: propext, Classical.choice, Quot.sound
Wamp.Site.C119_caller: propext, Classical.choice, Quot.sound
Wamp.Site.C119_secret_known: propext, Classical.choice, Quot.sound
Wamp.System.C120_registrations_agree: propext, Classical.choice, Quot.sound
Wamp.System.C120_owner: propext, Classical.choice, Quot.sound
Wamp.System.C120_shared: propext, Classical.choice, Quot.sound
Wamp.Net.C120_over_bytes: propext, Classical.choice, Quot.sound
Wamp.System.C121_results_passed_on: propext, Classical.choice, Quot.sound
Wamp.System.C121_caller_gets_what_callee_yields: propext, Classical.choice, Quot.sound
Wamp.Net.C121_over_bytes: propext, Classical.choice, Quot.sound
Wamp.Broker.C122_as_new: propext, Classical.choice, Quot.sound
Wamp.Dealer.C123_as_new_partial: propext, Classical.choice, Quot.sound
Wamp.Dealer.C123_stale_prefix: propext, Classical.choice, Quot.sound
Wamp.Dealer.C123_stale_call: propext, Classical.choice, Quot.sound
Wamp.Dealer.C123_stale_pattern: propext, Classical.choice, Quot.sound
Wamp.Formats.C124_written: propext, Classical.choice, Quot.sound
Wamp.Formats.C124_read: propext, Classical.choice, Quot.sound
Wamp.Formats.C124_understood: propext, Classical.choice, Quot.sound
Wamp.Formats.C124_trailing: propext, Classical.choice, Quot.sound
Wamp.Formats.C124_unambiguous: propext, Classical.choice, Quot.sound
Wamp.Formats.C124_text: propext, Classical.choice, Quot.sound
Wamp.Formats.C124_floats: propext, Classical.choice, Quot.sound
Wamp.Formats.C125_written: propext, Classical.choice, Quot.sound
Wamp.Formats.C125_read: propext, Quot.sound
Wamp.Formats.C125_unambiguous: propext, Quot.sound
Wamp.Formats.C125_understood_partial: propext, Classical.choice, Quot.sound
Wamp.Formats.C125_elements: propext, Quot.sound
Wamp.Formats.C125_int16_refused: propext, Classical.choice, Quot.sound
Wamp.Formats.C126_written: propext, Classical.choice, Quot.sound
Wamp.Formats.C126_read: propext, Classical.choice, Quot.sound
Wamp.Formats.C126_understood: propext, Classical.choice, Quot.sound
Wamp.Formats.C126_trailing: propext, Classical.choice, Quot.sound
Wamp.Formats.C126_unambiguous: propext, Classical.choice, Quot.sound
Wamp.Formats.C126_numbers: propext, Classical.choice, Quot.sound
Wamp.Formats.C126_base64: propext, Classical.choice, Quot.sound
Wamp.Formats.C127_cbor: propext, Classical.choice, Quot.sound
Wamp.Formats.C127_msgpack: propext, Classical.choice, Quot.sound
Wamp.Formats.C127_json: propext, Classical.choice, Quot.sound
Wamp.Formats.C127_cbor_truncated: propext, Classical.choice, Quot.sound
Wamp.Formats.C127_msgpack_truncated: propext, Classical.choice, Quot.sound
Wamp.Formats.C127_json_truncated: propext, Classical.choice, Quot.sound
Wamp.Acceptor.C128_one_question: propext, Classical.choice, Quot.sound
Wamp.Acceptor.C128_refused: propext, Classical.choice, Quot.sound
Wamp.Acceptor.C128_question: propext, Classical.choice, Quot.sound
Wamp.System.C129_parts_handed_on: propext, Classical.choice, Quot.sound
Wamp.System.C129_callee_gets_the_call: propext, Classical.choice, Quot.sound
Wamp.Net.C129_over_bytes: propext, Classical.choice, Quot.sound
Wamp.C130_keys: propext, Quot.sound
Wamp.C130_client: propext, Classical.choice, Quot.sound
Wamp.C130_signature: propext, Classical.choice, Quot.sound
Wamp.C130_login: propext, Classical.choice, Quot.sound
Wamp.System.C131_broker_accepted: propext, Classical.choice, Quot.sound
Wamp.System.C131_answers_accepted: propext, Classical.choice, Quot.sound
Wamp.System.C131_invocations_accepted: propext, Classical.choice, Quot.sound
Wamp.System.C131_events: propext, Classical.choice, Quot.sound
Wamp.System.C131_answers: propext, Classical.choice, Quot.sound
Wamp.System.C131_total_order: propext, Classical.choice, Quot.sound
Wamp.System.C131_every_event: propext, Classical.choice, Quot.sound
Wamp.System.C131_exactly: propext, Classical.choice, Quot.sound
Wamp.System.C131_requests_answered: propext, Classical.choice, Quot.sound
Wamp.System.C131_events_while_subscribed: propext, Classical.choice, Quot.sound
Wamp.System.C131_settled_once: propext, Classical.choice, Quot.sound
Wamp.System.C131_stays_callable: propext, Classical.choice, Quot.sound
Wamp.System.C131_results_passed_on: propext, Classical.choice, Quot.sound
Wamp.System.C131_parts_handed_on: propext, Classical.choice, Quot.sound
Wamp.System.C131_subscriptions_agree: propext, Classical.choice, Quot.sound
Wamp.System.C131_registrations_agree: propext, Classical.choice, Quot.sound
Wamp.System.C131_owner: propext, Classical.choice, Quot.sound
Wamp.Intruder.C132_agreement: propext, Classical.choice, Quot.sound
Wamp.Intruder.C132_sessions: propext, Classical.choice, Quot.sound
Wamp.Intruder.C133_replayed: propext, Classical.choice, Quot.sound
Wamp.Intruder.C133_signed_before_partial: propext, Classical.choice, Quot.sound
Wamp.Intruder.C134_any_router: propext, Classical.choice, Quot.sound
Wamp.Intruder.C134_joined_partial: propext, Classical.choice, Quot.sound
Wamp.Interop.C135_client_cra: propext, Classical.choice, Quot.sound
Wamp.Interop.C135_defaults: propext, Classical.choice, Quot.sound
Wamp.Interop.C135_router_cra: propext, Classical.choice, Quot.sound
Wamp.Interop.C135_client_cryptosign: propext, Classical.choice, Quot.sound
Wamp.Interop.C135_router_cryptosign: propext, Classical.choice, Quot.sound
Wamp.Interop.C135_client_ticket: propext, Classical.choice, Quot.sound
Wamp.Interop.C135_router_ticket: propext, Classical.choice, Quot.sound
Wamp.Secrets.C136_client_cra: propext, Classical.choice, Quot.sound
Wamp.Secrets.C136_client_cryptosign: propext, Classical.choice, Quot.sound
Wamp.Secrets.C136_router: propext, Classical.choice, Quot.sound
Wamp.Net.C137_up: propext, Classical.choice, Quot.sound
Wamp.Net.C137_down: propext, Classical.choice, Quot.sound
Wamp.Net.C137_broker_accepted: propext, Classical.choice, Quot.sound
Wamp.Net.C137_answers_accepted: propext, Classical.choice, Quot.sound
Wamp.Net.C137_invocation_accepted: propext, Classical.choice, Quot.sound
Wamp.Net.C137_events: propext, Classical.choice, Quot.sound
Wamp.Net.C137_answers: propext, Classical.choice, Quot.sound
Wamp.Net.C137_order: propext, Classical.choice, Quot.sound
Wamp.Net.C137_requests_answered: propext, Classical.choice, Quot.sound
Wamp.Net.C137_settled_once: propext, Classical.choice, Quot.sound
Wamp.Net.C137_events_while_subscribed: propext, Classical.choice, Quot.sound
Wamp.Net.C137_every_event: propext, Classical.choice, Quot.sound
Wamp.Net.C137_exactly: propext, Classical.choice, Quot.sound
Wamp.Net.C137_subscriptions_agree: propext, Classical.choice, Quot.sound
Wamp.Net.C137_registrations_agree: propext, Classical.choice, Quot.sound
Wamp.Net.C137_owner: propext, Classical.choice, Quot.sound
Wamp.Net.C137_results: propext, Classical.choice, Quot.sound
Wamp.Net.C137_parts: propext, Classical.choice, Quot.sound
Wamp.Net.C137_calls_arrive: propext, Classical.choice, Quot.sound
Wamp.Json.C138_float64: propext, Classical.choice, Quot.sound
Wamp.Json.C138_float32: propext, Classical.choice, Quot.sound
Wamp.Json.C138_read: propext, Classical.choice, Quot.sound
Wamp.Connect.C139_timing: propext, Classical.choice, Quot.sound
Wamp.Connect.C139_connects: propext, Classical.choice, Quot.sound
Wamp.Connect.C139_formats: propext, Classical.choice, Quot.sound
Wamp.Injection.C140_injection: propext, Classical.choice, Quot.sound
Wamp.Injection.C140_forged: propext, Classical.choice, Quot.sound
Wamp.Injection.C140_fits_partial: propext, Quot.sound
Wamp.Broker.C141_broker_state: propext, Classical.choice, Quot.sound
Wamp.Broker.C141_broker_partial: propext, Classical.choice, Quot.sound
Wamp.Broker.C141_broker_chance: propext, Classical.choice, Quot.sound
Wamp.Dealer.C141_dealer_partial: propext, Classical.choice, Quot.sound
Wamp.Dealer.C141_dealer_chance: propext, Classical.choice, Quot.sound
Wamp.Mutex.C142_no_deadlock: propext, Classical.choice, Quot.sound
Wamp.Mutex.C142_calls_return: propext, Classical.choice, Quot.sound
Wamp.Mutex.C142_fair: propext, Classical.choice, Quot.sound
Wamp.Mutex.C142_exclusive: propext, Quot.sound
Wamp.Radix.C143_longest: propext, Quot.sound
Wamp.Radix.C143_table: propext, Quot.sound
Wamp.Broker.C144_broker: propext, Classical.choice, Quot.sound
Wamp.Broker.C144_broker_empty: propext, Classical.choice, Quot.sound
Wamp.Dealer.C144_dealer_partial: propext, Classical.choice, Quot.sound
Wamp.Dealer.C144_procedure_partial: propext, Classical.choice, Quot.sound
Wamp.Dealer.C144_calls_kept: propext, Classical.choice, Quot.sound
Wamp.Dealer.C144_unanswered_kept: propext, Classical.choice, Quot.sound
Wamp.Dealer.C144_patterns_kept: propext, Classical.choice, Quot.sound
Wamp.Dealer.C144_callees_kept: propext, Classical.choice, Quot.sound
Wamp.Session.C144_session_partial: propext, Classical.choice, Quot.sound
Wamp.Session.C144_requests_kept: propext, Classical.choice, Quot.sound
Wamp.Session.C145_sequential: propext, Classical.choice, Quot.sound
Wamp.Session.C145_overlap: propext, Classical.choice, Quot.sound
Wamp.OneFormat.C146_one_format: propext, Classical.choice, Quot.sound
Wamp.OneFormat.C146_refused: propext, Classical.choice, Quot.sound
Wamp.Refusal.C147_refused: propext, Classical.choice, Quot.sound
Wamp.Refusal.C147_method: propext, Classical.choice, Quot.sound
Wamp.Refusal.C147_signature: propext, Classical.choice, Quot.sound
Wamp.Refusal.C147_any_abort: propext, Classical.choice, Quot.sound
Wamp.Broker.C148_publication: propext, Classical.choice, Quot.sound
Wamp.Dealer.C149_call: propext, Classical.choice, Quot.sound
Wamp.Cbor.C150_pair_partial: propext, Quot.sound
Wamp.Cbor.C150_nil_refused: propext, Quot.sound
Wamp.Cbor.C150_payload_crashes: propext, Quot.sound
Wamp.System.C151_system: propext, Classical.choice, Quot.sound
Wamp.Broker.C151_broker: propext, Classical.choice, Quot.sound
Wamp.Dealer.C151_dealer: propext, Classical.choice, Quot.sound
Wamp.C152_hello: propext, Classical.choice, Quot.sound
Wamp.C152_welcome: propext, Classical.choice, Quot.sound
Wamp.C152_challenge: propext, Classical.choice, Quot.sound
Wamp.System.C153_system: propext, Classical.choice, Quot.sound
Wamp.Broker.C153_broker: propext, Classical.choice, Quot.sound
Wamp.Dealer.C153_dealer: propext, Classical.choice, Quot.sound
Wamp.ErrorText.C154_elements_partial: propext, Classical.choice, Quot.sound
Wamp.ErrorText.C154_length_partial: propext, Classical.choice, Quot.sound
Wamp.ErrorText.C154_methods: propext, Classical.choice, Quot.sound
Wamp.ErrorText.C154_outer: propext, Classical.choice, Quot.sound
Wamp.ErrorText.C154_results: propext, Classical.choice, Quot.sound
Wamp.ErrorText.C154_refuted: propext, Classical.choice, Quot.sound
Wamp.ErrorText.C154_length_refuted: propext, Classical.choice, Quot.sound
Wamp.ErrorText.C154_unknown_refuted: propext, Classical.choice, Quot.sound
Wamp.RouterText.C155_broker: propext, Classical.choice, Quot.sound
Wamp.RouterText.C155_dealer_partial: propext, Classical.choice, Quot.sound
Wamp.RouterText.C155_binary_refuted: propext, Classical.choice, Quot.sound
Wamp.RouterText.C155_subscription_refuted: propext, Classical.choice, Quot.sound
Wamp.RouterText.C155_yield_refuted: propext, Classical.choice, Quot.sound
Wamp.SessionText.C156_send: propext, Classical.choice, Quot.sound
Wamp.SessionText.C156_receive_partial: propext, Classical.choice, Quot.sound
Wamp.SessionText.C156_bytes: propext, Classical.choice, Quot.sound
Wamp.SessionText.C156_type_refuted: propext, Classical.choice, Quot.sound
Wamp.SessionText.C156_settled_refuted: propext, Classical.choice, Quot.sound
Wamp.HandshakeText.C157_acceptor_partial: propext, Classical.choice, Quot.sound
Wamp.HandshakeText.C157_pubkey_refuted: propext, Classical.choice, Quot.sound
Wamp.HandshakeText.C157_joiner: propext, Classical.choice, Quot.sound
Wamp.HandshakeText.C157_bytes: propext, Classical.choice, Quot.sound
Wamp.HandshakeText.C157_other: propext, Classical.choice, Quot.sound
Wamp.HandshakeText.C157_client: propext, Classical.choice, Quot.sound
Wamp.HandshakeText.C157_keys: propext, Classical.choice, Quot.sound
Wamp.FormatText.C158_send: propext, Classical.choice, Quot.sound
Wamp.FormatText.C158_receive: propext, Classical.choice, Quot.sound
Wamp.FormatText.C158_deserialize: propext, Classical.choice, Quot.sound
Wamp.FormatText.C158_serialize: propext, Classical.choice, Quot.sound
Wamp.FormatText.C158_decode_cbor: propext, Classical.choice, Quot.sound
Wamp.FormatText.C158_signatures: propext, Classical.choice, Quot.sound
Wamp.SyncMap.C159_map_partial: propext, Quot.sound
Wamp.SyncMap.C159_concrete: propext, Quot.sound
Wamp.SyncMap.C159_session: propext, Quot.sound
Wamp.SyncMap.C159_nil_refuted: propext, Quot.sound
Wamp.Broker.C160_broker: propext, Classical.choice, Quot.sound
Wamp.Dealer.C160_dealer_partial: propext, Classical.choice, Quot.sound
Wamp.Dealer.C160_yield: propext, Classical.choice, Quot.sound
Wamp.Dealer.C160_call_refuted: propext, Classical.choice, Quot.sound
Wamp.Acceptor.C160_acceptor: propext, Classical.choice, Quot.sound
Wamp.Joiner.C160_joiner: propext, Classical.choice, Quot.sound
Wamp.System.C161_system: propext, Classical.choice, Quot.sound
Wamp.Broker.C161_broker: propext, Classical.choice, Quot.sound
Wamp.Dealer.C161_dealer: propext, Classical.choice, Quot.sound
Wamp.Uris.C161_prefix: propext, Quot.sound
Wamp.System.C162_system: propext, Classical.choice, Quot.sound
Wamp.Session.C162_session: propext, Classical.choice, Quot.sound
Wamp.Broker.C162_broker: propext, Classical.choice, Quot.sound
Wamp.Dealer.C162_dealer: propext, Classical.choice, Quot.sound
Wamp.System.C163_system: propext, Classical.choice, Quot.sound
Wamp.Broker.C163_broker: propext, Classical.choice, Quot.sound
Wamp.Dealer.C163_dealer: propext, Classical.choice, Quot.sound
Wamp.Broker.C164_again: propext, Classical.choice, Quot.sound
Wamp.Broker.C164_undo_partial: propext, Classical.choice, Quot.sound
Wamp.Broker.C164_leave: propext, Classical.choice, Quot.sound
Wamp.Broker.C164_undo_refuted: propext, Classical.choice, Quot.sound
Wamp.Dealer.C165_leave_partial: propext, Classical.choice, Quot.sound
Wamp.Dealer.C165_leave_refuted: propext, Classical.choice, Quot.sound
Wamp.Broker.C166_listener: propext, Classical.choice, Quot.sound
Wamp.Broker.C166_listener_refuted: propext, Classical.choice, Quot.sound
Wamp.Broker.C166_alone_refuted: propext, Classical.choice, Quot.sound
Wamp.System.C167_onlooker: propext, Classical.choice, Quot.sound
Wamp.System.C167_pattern_refuted: propext, Classical.choice, Quot.sound
Wamp.Sha256.C168_signature: propext, Quot.sound
Wamp.Sha256.C168_derived: propext, Quot.sound
Wamp.Sha256.C168_iterations: propext, Quot.sound
Wamp.Sha256.C168_shorter: propext, Quot.sound
Wamp.Sha256.C169_secrets_partial: propext, Classical.choice, Quot.sound
Wamp.Sha256.C169_login_partial: propext, Classical.choice, Quot.sound
Wamp.Sha256.C169_interchangeable: propext, Classical.choice, Quot.sound
Wamp.Sha256.C169_secrets_refuted: propext, Classical.choice, Quot.sound
Wamp.Ed25519.C170_sizes: propext
Wamp.Ed25519.C170_answer: propext, Quot.sound
Wamp.Ed25519.C170_canonical: propext, Quot.sound
Wamp.Ed25519.C170_scheme: propext, Quot.sound
Wamp.Ed25519.C171_verify: propext, Classical.choice, Quot.sound
Wamp.Ed25519.C171_anybody: propext, Classical.choice, Quot.sound
Wamp.Ed25519.C171_login: propext, Classical.choice, Quot.sound
