# Axioms of each property theorem

Output of Lean's axiom collector (`#print axioms`) for every theorem named in MANIFEST.json. Nothing else occurs: no `sorryAx`, no `Lean.ofReduceBool`, no axiom of this project.

| theorem | axioms |
|---|---|
| `Tlsn.C01_to_partial_noninterference` | Classical.choice, Quot.sound, propext |
| `Tlsn.C01_to_partial_panics_iff` | Classical.choice, Quot.sound, propext |
| `Tlsn.C01_to_partial_redacts` | Classical.choice, Quot.sound, propext |
| `Tlsn.C02_roundtrip` | Classical.choice, Quot.sound, propext |
| `Tlsn.C02_roundtrip_id_iff` | Classical.choice, Quot.sound, propext |
| `Tlsn.C03_deserialize_no_panic_partial` | Classical.choice, Quot.sound, propext |
| `Tlsn.C03_deserialize_ok_iff` | Classical.choice, Quot.sound, propext |
| `Tlsn.C03_deserialize_panics` | Classical.choice, Quot.sound, propext |
| `Tlsn.C03_deserialize_sound` | Classical.choice, Quot.sound, propext |
| `Tlsn.C04_union_comm` | Classical.choice, Quot.sound, propext |
| `Tlsn.C04_union_panics_iff` | Classical.choice, Quot.sound, propext |
| `Tlsn.C04_union_redactions` | Classical.choice, Quot.sound, propext |
| `Tlsn.C04_union_spec` | Classical.choice, Quot.sound, propext |
| `Tlsn.C05_set_unauthed` | Classical.choice, Quot.sound, propext |
| `Tlsn.C05_set_unauthed_range` | Classical.choice, Quot.sound, propext |
| `Tlsn.C06_get` | Classical.choice, Quot.sound, propext |
| `Tlsn.C06_subsequence_new` | Classical.choice, Quot.sound, propext |
| `Tlsn.C06_values_spec` | Classical.choice, Quot.sound, propext |
| `Tlsn.C07_history` | Classical.choice, Quot.sound, propext |
| `Tlsn.C07_history_no_panic` | Classical.choice, Quot.sound, propext |
| `Tlsn.C07_step` | Classical.choice, Quot.sound, propext |
| `Tlsn.C08_union_subsequence` | Classical.choice, Quot.sound, propext |
| `Tlsn.C08_union_subsequence_overwrites` | Classical.choice, Quot.sound, propext |
| `Tlsn.C09_authed_committed` | Classical.choice, Quot.sound, propext |
| `Tlsn.C09_verify_iff` | Classical.choice, Quot.sound, propext |
| `Tlsn.C09_verify_no_panic` | Classical.choice, Quot.sound, propext |
| `Tlsn.C10_binding` | Classical.choice, Quot.sound, propext |
| `Tlsn.Demo.C100_shown_partial` | Classical.choice, Quot.sound, propext |
| `Tlsn.Protocol.C100_application_partial` | Classical.choice, Quot.sound, propext |
| `Tlsn.Protocol.C100_presentation_partial` | Classical.choice, Quot.sound, propext |
| `Tlsn.Protocol.C101_end_to_end` | Classical.choice, Quot.sound, propext |
| `Tlsn.Gcm.C102_aes_gcm_computes` | Classical.choice, Quot.sound, propext |
| `Tlsn.Gcm.C102_keystream_computes` | Classical.choice, Quot.sound, propext |
| `Tlsn.Gcm.C103_both_parties` | Classical.choice, Quot.sound, propext |
| `Tlsn.Gcm.C103_resources` | Classical.choice, Quot.sound, propext |
| `Tlsn.Gcm.C104_shares_add_up` | Classical.choice, Quot.sound, propext |
| `Tlsn.Gcm.C105_last_key_before_partial` | Classical.choice, Quot.sound, propext |
| `Tlsn.Gcm.C105_later_keys_ignored` | Classical.choice, Quot.sound, propext |
| `Tlsn.Gcm.C105_set_key_has_no_effect` | Quot.sound, propext |
| `Tlsn.Pki.C106_accepted` | Quot.sound, propext |
| `Tlsn.Pki.C106_offered` | propext |
| `Tlsn.Pki.C106_p384_rejected` | Quot.sound, propext |
| `Tlsn.Pki.C106_proxy_recorded` | propext |
| `Tlsn.Pki.C106_recorded_partial` | Quot.sound, propext |
| `Tlsn.Pki.C106_tls13` | propext |
| `Tlsn.Pki.C107_client` | Classical.choice, Quot.sound, propext |
| `Tlsn.Pki.C107_roots` | propext |
| `Tlsn.Pki.C107_verifier` | Quot.sound, propext |
| `Tlsn.ClientAuth.C108_same_roots_partial` | Classical.choice, Quot.sound, propext |
| `Tlsn.Pki.C108_p384_rejected` | Classical.choice, Quot.sound, propext |
| `Tlsn.Pki.C108_verifier_accepts_partial` | Classical.choice, Quot.sound, propext |
| `Tlsn.ClientAuth.C109_key` | Classical.choice, Quot.sound, propext |
| `Tlsn.ClientAuth.C109_sec1` | Classical.choice, Quot.sound, propext |
| `Tlsn.ClientAuth.C109_sequence` | Classical.choice, Quot.sound, propext |
| `Tlsn.C11_build_no_panic` | Classical.choice, Quot.sound, propext |
| `Tlsn.C11_build_verifies` | Classical.choice, Quot.sound, propext |
| `Tlsn.ClientAuth.C110_accepted` | Classical.choice, Quot.sound, propext |
| `Tlsn.ClientAuth.C110_certificate` | Classical.choice, Quot.sound, propext |
| `Tlsn.ClientAuth.C110_once` | Classical.choice, Quot.sound, propext |
| `Tlsn.ClientAuth.C110_scheme` | Quot.sound, propext |
| `Tlsn.ClientAuth.C110_sign` | Classical.choice, Quot.sound, propext |
| `Tlsn.ClientAuth.C110_verify` | Classical.choice, Quot.sound, propext |
| `Tlsn.ClientAuth.C111_builder` | propext |
| `Tlsn.ClientAuth.C111_config` | Quot.sound, propext |
| `Tlsn.Wasm.C112_asks` | Quot.sound, propext |
| `Tlsn.Wasm.C112_channel` | Quot.sound, propext |
| `Tlsn.Wasm.C112_end` | Quot.sound, propext |
| `Tlsn.Wasm.C112_failed` | Quot.sound, propext |
| `Tlsn.Wasm.C112_hyper` | Quot.sound, propext |
| `Tlsn.Wasm.C112_hyper_adapter` | Quot.sound, propext |
| `Tlsn.Wasm.C112_next` | Quot.sound, propext |
| `Tlsn.Wasm.C112_order` | Quot.sound, propext |
| `Tlsn.Wasm.C112_waits` | Quot.sound, propext |
| `Tlsn.Wasm.C113_blind` | Quot.sound, propext |
| `Tlsn.Wasm.C113_closed` | Quot.sound, propext |
| `Tlsn.Wasm.C113_lost` | Quot.sound, propext |
| `Tlsn.Wasm.C113_order_partial` | propext |
| `Tlsn.Wasm.C113_write_partial` | Quot.sound, propext |
| `Tlsn.Wasm.C114_client` | Quot.sound, propext |
| `Tlsn.Wasm.C114_config` | Quot.sound, propext |
| `Tlsn.Wasm.C114_error` | Quot.sound, propext |
| `Tlsn.Wasm.C114_limits` | Quot.sound, propext |
| `Tlsn.Wasm.C114_new` | Quot.sound, propext |
| `Tlsn.Wasm.C114_verifier` | Quot.sound, propext |
| `Tlsn.Wasm.C115_calls` | Classical.choice, Quot.sound, propext |
| `Tlsn.Wasm.C115_events` | Classical.choice, Quot.sound, propext |
| `Tlsn.Wasm.C115_once` | Classical.choice, Quot.sound, propext |
| `Tlsn.Wasm.C115_percent` | Classical.choice, Quot.sound, propext |
| `Tlsn.Wasm.C115_progress` | Classical.choice, Quot.sound, propext |
| `Tlsn.Wasm.C115_refused` | Classical.choice, Quot.sound, propext |
| `Tlsn.Wasm.C115_reveal` | Classical.choice, Quot.sound, propext |
| `Tlsn.Wasm.C115_transcript` | Classical.choice, Quot.sound, propext |
| `Tlsn.SdkHttp.C116_accepts` | Quot.sound, propext |
| `Tlsn.SdkHttp.C116_javascript` | Quot.sound, propext |
| `Tlsn.SdkHttp.C116_request` | Quot.sound, propext |
| `Tlsn.SdkHttp.C117_distinct_partial` | Quot.sound, propext |
| `Tlsn.SdkHttp.C117_javascript_partial` | Classical.choice, Quot.sound, propext |
| `Tlsn.SdkHttp.C117_repeated` | propext |
| `Tlsn.SdkHttp.C117_response_partial` | Classical.choice, Quot.sound, propext |
| `Tlsn.Signing.C118_accepted` | Classical.choice, Quot.sound, propext |
| `Tlsn.Signing.C118_attestation` | Classical.choice, Quot.sound, propext |
| `Tlsn.Signing.C118_call` | Quot.sound, propext |
| `Tlsn.Signing.C118_ids` | Quot.sound, propext |
| `Tlsn.Signing.C118_signer` | Classical.choice, Quot.sound, propext |
| `Tlsn.Signing.C118_signs` | Classical.choice, Quot.sound, propext |
| `Tlsn.Signing.C118_supported` | Quot.sound, propext |
| `Tlsn.Signing.C119_accepts` | Quot.sound, propext |
| `Tlsn.Signing.C119_header_signed` | Classical.choice, Quot.sound, propext |
| `Tlsn.Signing.C119_only_signed` | Classical.choice, Quot.sound, propext |
| `Tlsn.Signing.C119_separate` | Quot.sound, propext |
| `Tlsn.C12_no_extra_disclosure` | Classical.choice, Quot.sound, propext |
| `Tlsn.C12_noninterference` | Classical.choice, Quot.sound, propext |
| `Tlsn.Sdk.C120_application` | Classical.choice, Quot.sound, propext |
| `Tlsn.Sdk.C120_output` | Classical.choice, Quot.sound, propext |
| `Tlsn.Wasm.C120_javascript` | Classical.choice, Quot.sound, propext |
| `Tlsn.Wasm.C121_honest` | Classical.choice, Quot.sound, propext |
| `Tlsn.Wasm.C121_rejected` | Classical.choice, Quot.sound, propext |
| `Tlsn.Wasm.C122_documented_fields` | Classical.choice, Quot.sound, propext |
| `Tlsn.Wasm.C122_handlers` | Classical.choice, Quot.sound, propext |
| `Tlsn.Wasm.C122_null` | Classical.choice, Quot.sound, propext |
| `Tlsn.Wasm.C122_output` | Classical.choice, Quot.sound, propext |
| `Tlsn.Wasm.C122_plugin` | Classical.choice, Quot.sound, propext |
| `Tlsn.Proxy.C123_config` | Classical.choice, Quot.sound, propext |
| `Tlsn.Proxy.C123_identity` | Classical.choice, Quot.sound, propext |
| `Tlsn.Sdk.C124_default` | propext |
| `Tlsn.Sdk.C124_determined` | Classical.choice, Quot.sound, propext |
| `Tlsn.Sdk.C124_filter` | Classical.choice, Quot.sound, propext |
| `Tlsn.Sdk.C124_installed` | Classical.choice, Quot.sound, propext |
| `Tlsn.Sdk.C124_span_events_ignored` | propext |
| `Tlsn.C125_no_panic` | Classical.choice, Quot.sound, propext |
| `Tlsn.C125_same_keys` | Classical.choice, Quot.sound, propext |
| `Tlsn.Gcm.C126_directions` | Classical.choice, Quot.sound, propext |
| `Tlsn.Gcm.C127_any_order` | Quot.sound, propext |
| `Tlsn.Gcm.C127_follower_has_no_key` | Classical.choice, Quot.sound, propext |
| `Tlsn.Gcm.C127_follower_learns_nothing` | Classical.choice, Quot.sound, propext |
| `Tlsn.Gcm.C127_leader_has_server_key` | Classical.choice, Quot.sound, propext |
| `Tlsn.C128_closed_partial` | Classical.choice, Quot.sound, propext |
| `Tlsn.C128_truncation_accepted` | Classical.choice, Quot.sound, propext |
| `Tlsn.Drive.C128_committed_without_alert` | Quot.sound, propext |
| `Tlsn.Client.C129_transcript` | Classical.choice, Quot.sound, propext |
| `Tlsn.C13_query_history` | Classical.choice, Quot.sound, propext |
| `Tlsn.C13_reveal` | Classical.choice, Quot.sound, propext |
| `Tlsn.C130_all` | Classical.choice, Quot.sound, propext |
| `Tlsn.C130_in_transcript` | Classical.choice, Quot.sound, propext |
| `Tlsn.Protocol.C131_output` | Classical.choice, Quot.sound, propext |
| `Tlsn.Protocol.C131_prover` | Classical.choice, Quot.sound, propext |
| `Tlsn.Protocol.C131_session` | Classical.choice, Quot.sound, propext |
| `Tlsn.Client.C132_declined` | propext |
| `Tlsn.Client.C132_unexpected` | propext |
| `Tlsn.Message.C133_cover` | Classical.choice, Quot.sound, propext |
| `Tlsn.Message.C133_missing` | Classical.choice, Quot.sound, propext |
| `Tlsn.Message.C133_outside` | Classical.choice, Quot.sound, propext |
| `Tlsn.Message.C133_text` | Classical.choice, Quot.sound, propext |
| `Tlsn.Age.C134_adult_accepted` | Classical.choice, Quot.sound, propext |
| `Tlsn.Age.C134_age_partial` | Classical.choice, Quot.sound, propext |
| `Tlsn.Age.C134_anyone_accepted` | Classical.choice, Quot.sound, propext |
| `Tlsn.Age.C134_other_algorithm_panics` | Quot.sound, propext |
| `Tlsn.Age.C134_place_unchecked` | Quot.sound, propext |
| `Tlsn.Age.C134_session_partial` | Classical.choice, Quot.sound, propext |
| `Tlsn.Protocol.C135_found` | Classical.choice, Quot.sound, propext |
| `Tlsn.Protocol.C135_redacted` | Classical.choice, Quot.sound, propext |
| `Tlsn.Demo.C136_basic` | Classical.choice, Quot.sound, propext |
| `Tlsn.Demo.C136_honest` | Classical.choice, Quot.sound, propext |
| `Tlsn.Demo.C136_proxy` | Classical.choice, Quot.sound, propext |
| `Tlsn.Protocol.C137_commit_decision` | propext |
| `Tlsn.Protocol.C137_commit_prover` | Quot.sound, propext |
| `Tlsn.Protocol.C137_commit_reason` | propext |
| `Tlsn.Protocol.C137_commit_verifier` | Quot.sound, propext |
| `Tlsn.Protocol.C137_internal_is_not_a_bug` | Classical.choice, Quot.sound, propext |
| `Tlsn.Protocol.C137_msg_is_not_the_reason` | Classical.choice, Quot.sound, propext |
| `Tlsn.Protocol.C137_prove` | Classical.choice, Quot.sound, propext |
| `Tlsn.Protocol.C137_reason` | Classical.choice, Quot.sound, propext |
| `Tlsn.Protocol.C137_round` | Classical.choice, Quot.sound, propext |
| `Tlsn.Protocol.C137_same_calls` | Classical.choice, Quot.sound, propext |
| `Tlsn.Protocol.C137_same_prove` | Classical.choice, Quot.sound, propext |
| `Tlsn.Protocol.C137_success` | Classical.choice, Quot.sound, propext |
| `Tlsn.Protocol.C137_verify` | Classical.choice, Quot.sound, propext |
| `Tlsn.Protocol.C137_versions` | Quot.sound, propext |
| `Tlsn.Proxy.C137_proxy_finished` | Quot.sound, propext |
| `Tlsn.Proxy.C137_proxy_run` | Quot.sound, propext |
| `Tlsn.Sdk.C138_accepted` | Quot.sound, propext |
| `Tlsn.Sdk.C138_reveal_text` | Classical.choice, Quot.sound, propext |
| `Tlsn.Sdk.C138_setup_text` | Classical.choice, Quot.sound, propext |
| `Tlsn.Sdk.C138_told` | Quot.sound, propext |
| `Tlsn.Client.Name.C139_addresses_not_told` | none |
| `Tlsn.Client.Name.C139_prefix_free` | Quot.sound, propext |
| `Tlsn.Client.Name.C139_sni` | propext |
| `Tlsn.C14_cross_kind_incomplete` | Classical.choice, Quot.sound, propext |
| `Tlsn.C14_first_kind_complete` | Classical.choice, Quot.sound, propext |
| `Tlsn.C14_single_kind_complete` | Classical.choice, Quot.sound, propext |
| `Tlsn.Drive.C140_choice_not_noticed` | Quot.sound, propext |
| `Tlsn.Drive.C140_polled_in_vain` | Quot.sound, propext |
| `Tlsn.Drive.C140_quiet_partial` | Classical.choice, Quot.sound, propext |
| `Tlsn.Proxy.C140_proxy_left` | Classical.choice, Quot.sound, propext |
| `Tlsn.Proxy.C140_proxy_quiet_partial` | propext |
| `Tlsn.Proxy.C141_alert` | Classical.choice, Quot.sound, propext |
| `Tlsn.Proxy.C141_logged` | propext |
| `Tlsn.Proxy.C141_sent` | Classical.choice, Quot.sound, propext |
| `Tlsn.Sdk.C142_entire` | Classical.choice, Quot.sound, propext |
| `Tlsn.Sdk.C142_error` | Classical.choice, Quot.sound, propext |
| `Tlsn.Sdk.C142_source` | Classical.choice, Quot.sound, propext |
| `Tlsn.Sdk.C142_text` | Classical.choice, Quot.sound, propext |
| `Tlsn.C15_call_fails_iff` | Classical.choice, Quot.sound, propext |
| `Tlsn.C15_has_hash` | Classical.choice, Quot.sound, propext |
| `Tlsn.C15_in_bounds` | Classical.choice, Quot.sound, propext |
| `Tlsn.C15_request_exact` | Classical.choice, Quot.sound, propext |
| `Tlsn.C16_call_fails_iff` | Classical.choice, Quot.sound, propext |
| `Tlsn.C16_in_bounds` | Classical.choice, Quot.sound, propext |
| `Tlsn.C16_other_fields` | Classical.choice, Quot.sound, propext |
| `Tlsn.C16_reveal_all` | Classical.choice, Quot.sound, propext |
| `Tlsn.C16_reveal_exact` | Classical.choice, Quot.sound, propext |
| `Tlsn.C17_build_iff` | Quot.sound, propext |
| `Tlsn.C17_derive_no_panic` | Quot.sound, propext |
| `Tlsn.C17_derive_partial` | Classical.choice, Quot.sound, propext |
| `Tlsn.C17_deserialize_iff` | Quot.sound, propext |
| `Tlsn.C17_explicit_records_not_reserved` | propext |
| `Tlsn.C17_limit_wraps` | none |
| `Tlsn.C18_complete` | Classical.choice, Quot.sound, propext |
| `Tlsn.C18_proof_exists_iff` | Classical.choice, Quot.sound, propext |
| `Tlsn.C19_binding` | Classical.choice, Quot.sound, propext |
| `Tlsn.C19_duplicates_rejected` | Quot.sound, propext |
| `Tlsn.C19_empty_rejected` | Quot.sound, propext |
| `Tlsn.C20_contents_partial` | Classical.choice, Quot.sound, propext |
| `Tlsn.C20_forged_presentation` | Classical.choice, Quot.sound, propext |
| `Tlsn.C20_forgery` | Classical.choice, Quot.sound, propext |
| `Tlsn.C20_merkle_extra_leaf_if_unchecked` | Classical.choice, Quot.sound, propext |
| `Tlsn.C20_merkle_graft` | Classical.choice, Quot.sound, propext |
| `Tlsn.C20_merkle_values_partial` | Classical.choice, Quot.sound, propext |
| `Tlsn.C21_complete` | Classical.choice, Quot.sound, propext |
| `Tlsn.C22_body_bound` | Classical.choice, Quot.sound, propext |
| `Tlsn.C22_header_signed` | Classical.choice, Quot.sound, propext |
| `Tlsn.C22_verify_iff` | Classical.choice, Quot.sound, propext |
| `Tlsn.C23_complete` | Classical.choice, Quot.sound, propext |
| `Tlsn.C23_identity_iff` | Classical.choice, Quot.sound, propext |
| `Tlsn.C23_issued` | Classical.choice, Quot.sound, propext |
| `Tlsn.C23_no_panic` | Classical.choice, Quot.sound, propext |
| `Tlsn.C23_parts_independent` | Classical.choice, Quot.sound, propext |
| `Tlsn.C23_sound` | Classical.choice, Quot.sound, propext |
| `Tlsn.C23_verify_iff` | Classical.choice, Quot.sound, propext |
| `Tlsn.C24_message_binds` | propext |
| `Tlsn.C24_verify_iff` | Classical.choice, Quot.sound, propext |
| `Tlsn.C25_body_not_checked` | Classical.choice, Quot.sound, propext |
| `Tlsn.C25_complete` | Classical.choice, Quot.sound, propext |
| `Tlsn.C25_validate_iff` | Classical.choice, Quot.sound, propext |
| `Tlsn.C26_accepts_iff` | Classical.choice, Quot.sound, propext |
| `Tlsn.C26_eq_iff` | Classical.choice, Quot.sound, propext |
| `Tlsn.C26_round_trip` | Classical.choice, Quot.sound, propext |
| `Tlsn.C27_committed_sequence` | Classical.choice, Quot.sound, propext |
| `Tlsn.C27_keystream_blocks` | Quot.sound, propext |
| `Tlsn.C27_nonce_counter_once` | Classical.choice, Quot.sound, propext |
| `Tlsn.C27_received_nonce_repeats` | Quot.sound, propext |
| `Tlsn.C27_released_nonces` | Classical.choice, Quot.sound, propext |
| `Tlsn.C28_limit_wraps` | Quot.sound, propext |
| `Tlsn.C28_limits_partial` | Classical.choice, Quot.sound, propext |
| `Tlsn.C28_small_records_exhaust` | Quot.sound, propext |
| `Tlsn.C29_commit` | Classical.choice, Quot.sound, propext |
| `Tlsn.C29_drained` | Classical.choice, Quot.sound, propext |
| `Tlsn.C29_empty_record_fails` | Classical.choice, Quot.sound, propext |
| `Tlsn.C29_failed_flush_loses` | Quot.sound, propext |
| `Tlsn.C29_gate` | Quot.sound, propext |
| `Tlsn.C29_no_gap` | Classical.choice, Quot.sound, propext |
| `Tlsn.C29_order` | Classical.choice, Quot.sound, propext |
| `Tlsn.C29_rejected_push_skips` | Quot.sound, propext |
| `Tlsn.C30_ghash` | Classical.choice, Quot.sound, propext |
| `Tlsn.C30_key_length` | Quot.sound, propext |
| `Tlsn.C30_tags` | Classical.choice, Quot.sound, propext |
| `Tlsn.C30_too_long` | Classical.choice, Quot.sound, propext |
| `Tlsn.C31_aad` | Classical.choice, Quot.sound, propext |
| `Tlsn.C31_aad_truncates` | Classical.choice, Quot.sound, propext |
| `Tlsn.C31_ghash_input` | Classical.choice, Quot.sound, propext |
| `Tlsn.C32_accept_iff` | Classical.choice, Quot.sound, propext |
| `Tlsn.C32_references` | Classical.choice, Quot.sound, propext |
| `Tlsn.C33_output` | Classical.choice, Quot.sound, propext |
| `Tlsn.C33_rejects` | Classical.choice, Quot.sound, propext |
| `Tlsn.C34_crash` | Classical.choice, Quot.sound, propext |
| `Tlsn.C34_in_bounds_no_panic` | Classical.choice, Quot.sound, propext |
| `Tlsn.C34_panic_iff` | Classical.choice, Quot.sound, propext |
| `Tlsn.C35_accept_iff` | Quot.sound, propext |
| `Tlsn.C35_tags_determined` | Classical.choice, Quot.sound, propext |
| `Tlsn.C36_enums` | Classical.choice, Quot.sound, propext |
| `Tlsn.C36_integers` | Classical.choice, Quot.sound, propext |
| `Tlsn.C36_network_order` | Classical.choice, Quot.sound, propext |
| `Tlsn.C36_payloads` | Classical.choice, Quot.sound, propext |
| `Tlsn.C36_truncation` | Classical.choice, Quot.sound, propext |
| `Tlsn.C36_vectors` | Classical.choice, Quot.sound, propext |
| `Tlsn.C37_chunking` | Classical.choice, Quot.sound, propext |
| `Tlsn.C37_deframed` | Classical.choice, Quot.sound, propext |
| `Tlsn.C37_other_versions` | Quot.sound, propext |
| `Tlsn.C37_pending` | Classical.choice, Quot.sound, propext |
| `Tlsn.C37_progress` | Classical.choice, Quot.sound, propext |
| `Tlsn.C37_unique` | Classical.choice, Quot.sound, propext |
| `Tlsn.C38_bounds` | Quot.sound, propext |
| `Tlsn.C38_deframe` | Classical.choice, Quot.sound, propext |
| `Tlsn.C38_fragment` | Classical.choice, Quot.sound, propext |
| `Tlsn.C38_fragment_borrow` | Classical.choice, Quot.sound, propext |
| `Tlsn.C39_fragmentation` | Classical.choice, Quot.sound, propext |
| `Tlsn.C39_joined` | Classical.choice, Quot.sound, propext |
| `Tlsn.C39_unique` | Classical.choice, Quot.sound, propext |
| `Tlsn.C40_delivers` | Classical.choice, Quot.sound, propext |
| `Tlsn.C40_fifo` | Quot.sound, propext |
| `Tlsn.C40_limit` | Classical.choice, Quot.sound, propext |
| `Tlsn.C41_accepts` | Classical.choice, Quot.sound, propext |
| `Tlsn.C41_finished_hashes` | Classical.choice, Quot.sound, propext |
| `Tlsn.C41_fragmentation` | Classical.choice, Quot.sound, propext |
| `Tlsn.C41_hello_retry_random` | Quot.sound, propext |
| `Tlsn.C41_no_hash_without_streams` | Classical.choice, Quot.sound, propext |
| `Tlsn.C41_session_hash_partial` | Classical.choice, Quot.sound, propext |
| `Tlsn.C41_session_hash_with_ticket` | Classical.choice, Quot.sound, propext |
| `Tlsn.C41_unique` | Classical.choice, Quot.sound, propext |
| `Tlsn.C42_accessors_total` | Classical.choice, Quot.sound, propext |
| `Tlsn.C42_build_panics_only_on_empty` | Classical.choice, Quot.sound, propext |
| `Tlsn.C42_empty_records_panic` | Quot.sound, propext |
| `Tlsn.C42_given_iff` | Classical.choice, Quot.sound, propext |
| `Tlsn.C42_given_kept` | Classical.choice, Quot.sound, propext |
| `Tlsn.C42_records` | Classical.choice, Quot.sound, propext |
| `Tlsn.C42_records_of_wire` | Classical.choice, Quot.sound, propext |
| `Tlsn.C42_records_unique` | Quot.sound, propext |
| `Tlsn.C42_surplus_ignored` | Quot.sound, propext |
| `Tlsn.C42_to_transcript` | Quot.sound, propext |
| `Tlsn.C42_to_transcript_error` | Quot.sound, propext |
| `Tlsn.C42_to_transcript_total` | propext |
| `Tlsn.C42_transcript_of_streams` | Classical.choice, Quot.sound, propext |
| `Tlsn.C42_verify_data` | Quot.sound, propext |
| `Tlsn.C43_accepts` | Classical.choice, Quot.sound, propext |
| `Tlsn.C43_hello_first_panics` | Classical.choice, Quot.sound, propext |
| `Tlsn.C43_panics` | Classical.choice, Quot.sound, propext |
| `Tlsn.C44_alloc` | Classical.choice, Quot.sound, propext |
| `Tlsn.C44_alloc_mode` | Quot.sound, propext |
| `Tlsn.C44_alloc_once` | Classical.choice, Quot.sound, propext |
| `Tlsn.C44_client_finished` | Classical.choice, Quot.sound, propext |
| `Tlsn.C44_flush_loop` | Classical.choice, Quot.sound, propext |
| `Tlsn.C44_reduced_loop_forever` | Classical.choice, Quot.sound, propext |
| `Tlsn.C44_server_finished` | Classical.choice, Quot.sound, propext |
| `Tlsn.C44_server_random_first` | Classical.choice, Quot.sound, propext |
| `Tlsn.C44_session_hash_length` | Classical.choice, Quot.sound, propext |
| `Tlsn.C44_session_keys` | Classical.choice, Quot.sound, propext |
| `Tlsn.C44_software_prf` | Quot.sound, propext |
| `Tlsn.C45_check` | Classical.choice, Quot.sound, propext |
| `Tlsn.C45_circuit` | Classical.choice, Quot.sound, propext |
| `Tlsn.C45_client_key` | Classical.choice, Quot.sound, propext |
| `Tlsn.C45_exchange` | Classical.choice, Quot.sound, propext |
| `Tlsn.C45_failed` | Classical.choice, Quot.sound, propext |
| `Tlsn.C45_finalize` | Classical.choice, Quot.sound, propext |
| `Tlsn.C45_identity` | Classical.choice, Quot.sound, propext |
| `Tlsn.C45_order` | Classical.choice, Quot.sound, propext |
| `Tlsn.C45_same_x` | Classical.choice, Quot.sound, propext |
| `Tlsn.C45_shares` | Classical.choice, Quot.sound, propext |
| `Tlsn.C46_assign` | Classical.choice, Quot.sound, propext |
| `Tlsn.C46_consume` | Classical.choice, Quot.sound, propext |
| `Tlsn.C46_used_once` | Classical.choice, Quot.sound, propext |
| `Tlsn.C47_empty_allocation` | Quot.sound, propext |
| `Tlsn.C47_insert_panics` | Quot.sound, propext |
| `Tlsn.C47_no_alias` | Quot.sound, propext |
| `Tlsn.C47_sound` | Quot.sound, propext |
| `Tlsn.C47_translates` | Quot.sound, propext |
| `Tlsn.C48_from_iter` | Quot.sound, propext |
| `Tlsn.C48_get` | Classical.choice, Quot.sound, propext |
| `Tlsn.C48_index` | Classical.choice, Quot.sound, propext |
| `Tlsn.C49_refused` | Classical.choice, Quot.sound, propext |
| `Tlsn.C49_verify_transcript` | Classical.choice, Quot.sound, propext |
| `Tlsn.Sdk.C50_commits` | Classical.choice, Quot.sound, propext |
| `Tlsn.Sdk.C50_flags_ignored` | Classical.choice, Quot.sound, propext |
| `Tlsn.Sdk.C50_inside` | Classical.choice, Quot.sound, propext |
| `Tlsn.Sdk.C50_no_pattern` | Classical.choice, Quot.sound, propext |
| `Tlsn.Sdk.C50_path_without_type` | Classical.choice, Quot.sound, propext |
| `Tlsn.Sdk.C50_plan` | Classical.choice, Quot.sound, propext |
| `Tlsn.Sdk.C50_plan_exists` | Classical.choice, Quot.sound, propext |
| `Tlsn.Sdk.C50_request` | Classical.choice, Quot.sound, propext |
| `Tlsn.Sdk.C50_reveals` | Classical.choice, Quot.sound, propext |
| `Tlsn.Sdk.C50_selected` | Classical.choice, Quot.sound, propext |
| `Tlsn.Sdk.C50_succeeds_iff` | Classical.choice, Quot.sound, propext |
| `Tlsn.Sdk.C51_array_element` | Classical.choice, Quot.sound, propext |
| `Tlsn.Sdk.C51_element_revealed` | Classical.choice, Quot.sound, propext |
| `Tlsn.Sdk.C51_empty_path` | Classical.choice, Quot.sound, propext |
| `Tlsn.Sdk.C51_hides_member_partial` | Classical.choice, Quot.sound, propext |
| `Tlsn.Sdk.C51_leading_dot` | Classical.choice, Quot.sound, propext |
| `Tlsn.C52_length_exact_iff` | Classical.choice, Quot.sound, propext |
| `Tlsn.C52_length_wraps` | Quot.sound, propext |
| `Tlsn.C53_fields_injective` | Classical.choice, Quot.sound, propext |
| `Tlsn.C53_header_injective` | Classical.choice, Quot.sound, propext |
| `Tlsn.C53_opening_injective` | Quot.sound, propext |
| `Tlsn.C54_builds_iff` | Classical.choice, Quot.sound, propext |
| `Tlsn.C54_contents` | Classical.choice, Quot.sound, propext |
| `Tlsn.C54_default_refuses_extensions` | Classical.choice, Quot.sound, propext |
| `Tlsn.C55_contains_iff` | Classical.choice, Quot.sound, propext |
| `Tlsn.C55_is_complete_iff` | Classical.choice, Quot.sound, propext |
| `Tlsn.C55_iter` | Classical.choice, Quot.sound, propext |
| `Tlsn.C56_request_contents` | Quot.sound, propext |
| `Tlsn.C57_commit_public_unchecked` | Quot.sound, propext |
| `Tlsn.C57_leader_authentic` | Classical.choice, Quot.sound, propext |
| `Tlsn.C58_within_limits` | Classical.choice, Quot.sound, propext |
| `Tlsn.C59_agreement` | Classical.choice, Quot.sound, propext |
| `Tlsn.C60_alias_committed` | Quot.sound, propext |
| `Tlsn.C60_type_alias` | Quot.sound, propext |
| `Tlsn.C60_wire_type_partial` | Classical.choice, Quot.sound, propext |
| `Tlsn.C61_message` | Classical.choice, Quot.sound, propext |
| `Tlsn.C61_same_view` | Classical.choice, Quot.sound, propext |
| `Tlsn.C62_in_step` | Classical.choice, Quot.sound, propext |
| `Tlsn.C63_honest_accepted` | Classical.choice, Quot.sound, propext |
| `Tlsn.C63_secrets_open` | Classical.choice, Quot.sound, propext |
| `Tlsn.C64_flag_ignored` | Classical.choice, Quot.sound, propext |
| `Tlsn.C64_identity_may_be_missing` | Classical.choice, Quot.sound, propext |
| `Tlsn.C65_client_hello_without_extensions_rejected` | Classical.choice, Quot.sound, propext |
| `Tlsn.C65_exact` | Classical.choice, Quot.sound, propext |
| `Tlsn.C65_extensions` | Classical.choice, Quot.sound, propext |
| `Tlsn.C65_in_stream` | Classical.choice, Quot.sound, propext |
| `Tlsn.C65_injective` | Classical.choice, Quot.sound, propext |
| `Tlsn.C65_layout_certificate` | Classical.choice, Quot.sound, propext |
| `Tlsn.C65_layout_hello` | Quot.sound, propext |
| `Tlsn.C65_layout_message` | propext |
| `Tlsn.C65_server_hello_without_extensions_rejected` | Classical.choice, Quot.sound, propext |
| `Tlsn.C66_buffering` | Quot.sound, propext |
| `Tlsn.C66_hash_of_received_bytes` | Classical.choice, Quot.sound, propext |
| `Tlsn.C66_hash_of_sent_bytes` | Classical.choice, Quot.sound, propext |
| `Tlsn.C66_retry` | Quot.sound, propext |
| `Tlsn.C67_fields` | Classical.choice, Quot.sound, propext |
| `Tlsn.C67_signed_bytes` | Classical.choice, Quot.sound, propext |
| `Tlsn.C67_unique` | Classical.choice, Quot.sound, propext |
| `Tlsn.C68_keys_available` | Classical.choice, Quot.sound, propext |
| `Tlsn.C68_session_keys` | Classical.choice, Quot.sound, propext |
| `Tlsn.C69_finish_once` | Classical.choice, Quot.sound, propext |
| `Tlsn.C69_transcript` | Classical.choice, Quot.sound, propext |
| `Tlsn.C70_agreement` | Classical.choice, Quot.sound, propext |
| `Tlsn.C71_messages_hide_data` | Classical.choice, Quot.sound, propext |
| `Tlsn.C72_published` | Classical.choice, Quot.sound, propext |
| `Tlsn.C72_secret_until_end` | Classical.choice, Quot.sound, propext |
| `Tlsn.C72_sound` | Classical.choice, Quot.sound, propext |
| `Tlsn.Sdk.C73_duplicate_dropped` | Classical.choice, Quot.sound, propext |
| `Tlsn.Sdk.C73_follows_request` | Quot.sound, propext |
| `Tlsn.Sdk.C73_openings_partial` | Classical.choice, Quot.sound, propext |
| `Tlsn.Sdk.C73_order_lost` | Classical.choice, Quot.sound, propext |
| `Tlsn.Sdk.C73_output_iff` | Quot.sound, propext |
| `Tlsn.Sdk.C73_single_range` | Classical.choice, Quot.sound, propext |
| `Tlsn.Sdk.C74_array_whole` | none |
| `Tlsn.Sdk.C74_message_exact` | Classical.choice, Quot.sound, propext |
| `Tlsn.Sdk.C74_message_total` | Classical.choice, Quot.sound, propext |
| `Tlsn.Sdk.C74_padding` | none |
| `Tlsn.Sdk.C74_selective` | Classical.choice, Quot.sound, propext |
| `Tlsn.Sdk.C74_transcript` | Classical.choice, Quot.sound, propext |
| `Tlsn.Sdk.C74_withhold` | Classical.choice, Quot.sound, propext |
| `Tlsn.Sdk.C75_accepts_iff` | Quot.sound, propext |
| `Tlsn.Sdk.C75_lengths` | Quot.sound, propext |
| `Tlsn.Sdk.C75_no_limit_refuses` | Quot.sound, propext |
| `Tlsn.Sdk.C75_protocol_bounded` | Quot.sound, propext |
| `Tlsn.Sdk.C75_record_limit_bypassed` | propext |
| `Tlsn.Sdk.C76_complete_lost` | Classical.choice, Quot.sound, propext |
| `Tlsn.Sdk.C76_prover_failure_final` | Classical.choice, Quot.sound, propext |
| `Tlsn.Sdk.C76_prover_order` | Classical.choice, Quot.sound, propext |
| `Tlsn.Sdk.C76_prover_succeeds` | Classical.choice, Quot.sound, propext |
| `Tlsn.Sdk.C76_reveal_once` | Classical.choice, Quot.sound, propext |
| `Tlsn.Sdk.C76_small_limit` | Classical.choice, Quot.sound, propext |
| `Tlsn.Sdk.C76_verifier_failure_final` | Quot.sound, propext |
| `Tlsn.Sdk.C76_verifier_order` | Classical.choice, Quot.sound, propext |
| `Tlsn.Client.C77_authenticated` | Classical.choice, Quot.sound, propext |
| `Tlsn.Client.C78_protected` | Classical.choice, Quot.sound, propext |
| `Tlsn.Client.C78_received` | Classical.choice, Quot.sound, propext |
| `Tlsn.Client.C78_records` | Classical.choice, Quot.sound, propext |
| `Tlsn.Client.C78_sent` | Classical.choice, Quot.sound, propext |
| `Tlsn.Client.C78_wire` | Classical.choice, Quot.sound, propext |
| `Tlsn.Client.C79_epochs` | Classical.choice, Quot.sound, propext |
| `Tlsn.Client.C80_final_partial` | Quot.sound, propext |
| `Tlsn.Client.C80_same_error_false` | Quot.sound, propext |
| `Tlsn.Client.C81_answers` | Quot.sound, propext |
| `Tlsn.Client.C81_leader` | Classical.choice, Quot.sound, propext |
| `Tlsn.Client.C81_once` | Classical.choice, Quot.sound, propext |
| `Tlsn.Client.C82_unauthenticated` | Quot.sound, propext |
| `Tlsn.Client.C82_wants_read` | Classical.choice, Quot.sound, propext |
| `Tlsn.Client.C83_completes` | Classical.choice, Quot.sound, propext |
| `Tlsn.Drive.C84_settled` | Quot.sound, propext |
| `Tlsn.Drive.C84_streams` | Classical.choice, Quot.sound, propext |
| `Tlsn.Drive.C85_close_notify` | Classical.choice, Quot.sound, propext |
| `Tlsn.Drive.C85_committed` | Classical.choice, Quot.sound, propext |
| `Tlsn.Drive.C85_once` | Quot.sound, propext |
| `Tlsn.Drive.C85_terminated` | Quot.sound, propext |
| `Tlsn.Drive.C86_application_gone` | Quot.sound, propext |
| `Tlsn.Drive.C86_eof_in_handshake` | Quot.sound, propext |
| `Tlsn.Drive.C86_returns_partial` | Classical.choice, Quot.sound, propext |
| `Tlsn.Drive.C86_trailing_bytes` | Quot.sound, propext |
| `Tlsn.Drive.C87_control_partial` | Classical.choice, Quot.sound, propext |
| `Tlsn.Drive.C87_ignored` | Quot.sound, propext |
| `Tlsn.Proxy.C88_complete` | propext |
| `Tlsn.Proxy.C88_ends` | Quot.sound, propext |
| `Tlsn.Proxy.C88_faithful` | propext |
| `Tlsn.Proxy.C88_time` | Quot.sound, propext |
| `Tlsn.Proxy.C89_accepted` | Classical.choice, Quot.sound, propext |
| `Tlsn.Proxy.C89_accepts` | Classical.choice, Quot.sound, propext |
| `Tlsn.Proxy.C89_sent_tags_unchecked` | Classical.choice, Quot.sound, propext |
| `Tlsn.Proxy.C90_panics_iff_partial` | Classical.choice, Quot.sound, propext |
| `Tlsn.Proxy.C91_revealed` | Classical.choice, Quot.sound, propext |
| `Tlsn.Proxy.C92_prover_agrees` | Classical.choice, Quot.sound, propext |
| `Tlsn.Proxy.C93_final_partial` | Classical.choice, Quot.sound, propext |
| `Tlsn.Proxy.C93_late_data` | propext |
| `Tlsn.Proxy.C93_output` | Classical.choice, Quot.sound, propext |
| `Tlsn.Proxy.C93_recorded` | Classical.choice, Quot.sound, propext |
| `Tlsn.Proxy.C93_unread_data` | propext |
| `Tlsn.Proxy.C93_unread_fails` | Classical.choice, Quot.sound, propext |
| `Tlsn.Proxy.C94_eof_in_handshake` | propext |
| `Tlsn.Proxy.C94_server_closed_partial` | Classical.choice, Quot.sound, propext |
| `Tlsn.Protocol.C95_consistent` | Classical.choice, Quot.sound, propext |
| `Tlsn.Protocol.C95_every_output` | Classical.choice, Quot.sound, propext |
| `Tlsn.Protocol.C95_failed_is_final` | Classical.choice, Quot.sound, propext |
| `Tlsn.Protocol.C95_rejected_no_effect` | Classical.choice, Quot.sound, propext |
| `Tlsn.Protocol.C96_all_rounds` | Classical.choice, Quot.sound, propext |
| `Tlsn.Protocol.C97_agree` | Quot.sound, propext |
| `Tlsn.Protocol.C97_rejected` | propext |
| `Tlsn.Protocol.C98_channel_once` | Quot.sound, propext |
| `Tlsn.Protocol.C98_close_not_lost` | Classical.choice, Quot.sound, propext |
| `Tlsn.Protocol.C98_next_poll_closes` | Classical.choice, Quot.sound, propext |
| `Tlsn.Protocol.C98_only_if_closed` | Classical.choice, Quot.sound, propext |
| `Tlsn.Protocol.C99_is_closed` | propext |
| `Tlsn.Protocol.C99_take` | Quot.sound, propext |
| `Tlsn.Protocol.C99_take_once` | Quot.sound, propext |
