{
 "claims": [
  {
   "property": "C01",
   "status": "proved",
   "theorems": [
    "Tlsn.C01_to_partial_redacts",
    "Tlsn.C01_to_partial_panics_iff",
    "Tlsn.C01_to_partial_noninterference"
   ],
   "note": "`Transcript`, `to_partial` over byte lists and canonical range sets. Exactness pointwise; non-interference as equality of outputs for transcripts that agree on the selected positions."
  },
  {
   "property": "C02",
   "status": "proved",
   "theorems": [
    "Tlsn.C02_roundtrip",
    "Tlsn.C02_roundtrip_id_iff"
   ],
   "note": "Compression and decompression. The round trip is characterised byte by byte."
  },
  {
   "property": "C03",
   "status": "partial",
   "theorems": [
    "Tlsn.C03_deserialize_ok_iff",
    "Tlsn.C03_deserialize_no_panic_partial",
    "Tlsn.C03_deserialize_panics",
    "Tlsn.C03_deserialize_sound"
   ],
   "note": "The `TryFrom` validation of received partial transcripts. Acceptance, refusal and panic are iffs; accepted values satisfy the invariant all later operations need. Disagreement 32: the stated lengths are allocated unchecked. Missing: stated lengths beyond `isize::MAX`, for which deserialization panics (`C03_deserialize_panics`)."
  },
  {
   "property": "C04",
   "status": "proved",
   "theorems": [
    "Tlsn.C04_union_panics_iff",
    "Tlsn.C04_union_spec",
    "Tlsn.C04_union_redactions",
    "Tlsn.C04_union_comm"
   ],
   "note": "`union_transcript` with an explicit panic. Pointwise meaning; algebra of redactions of one transcript."
  },
  {
   "property": "C05",
   "status": "proved",
   "theorems": [
    "Tlsn.C05_set_unauthed",
    "Tlsn.C05_set_unauthed_range"
   ],
   "note": "`set_unauthed`, `set_unauthed_range`. Pointwise."
  },
  {
   "property": "C06",
   "status": "proved",
   "theorems": [
    "Tlsn.C06_get",
    "Tlsn.C06_values_spec",
    "Tlsn.C06_subsequence_new"
   ],
   "note": "`get`, `Subsequence::new`. Exact characterisation."
  },
  {
   "property": "C07",
   "status": "proved",
   "theorems": [
    "Tlsn.C07_step",
    "Tlsn.C07_history",
    "Tlsn.C07_history_no_panic"
   ],
   "note": "Invariant by induction over arbitrary lists of operations."
  },
  {
   "property": "C08",
   "status": "proved",
   "theorems": [
    "Tlsn.C08_union_subsequence",
    "Tlsn.C08_union_subsequence_overwrites"
   ],
   "note": "`union_subsequence`. Pointwise, with a concrete witness that authenticated bytes can be overwritten."
  },
  {
   "property": "C09",
   "status": "proved",
   "theorems": [
    "Tlsn.C09_verify_iff",
    "Tlsn.C09_verify_no_panic",
    "Tlsn.C09_authed_committed"
   ],
   "note": "`TranscriptProof::verify_with_provider` as a fold. Loop invariant, acceptance as an iff."
  },
  {
   "property": "C10",
   "status": "proved",
   "theorems": [
    "Tlsn.C10_binding"
   ],
   "note": "The hash is a parameter. The conclusion is byte equality or an explicit collision."
  },
  {
   "property": "C11",
   "status": "proved",
   "theorems": [
    "Tlsn.C11_build_no_panic",
    "Tlsn.C11_build_verifies"
   ],
   "note": "Proof builder and greedy cover, composed with the verifier of C09."
  },
  {
   "property": "C12",
   "status": "proved",
   "theorems": [
    "Tlsn.C12_no_extra_disclosure",
    "Tlsn.C12_noninterference"
   ],
   "note": "Invariant of the cover loop; non-interference as equality of the proofs of two transcripts."
  },
  {
   "property": "C13",
   "status": "proved",
   "theorems": [
    "Tlsn.C13_reveal",
    "Tlsn.C13_query_history"
   ],
   "note": "Exact result of `reveal` in all reachable builders, by induction over histories."
  },
  {
   "property": "C14",
   "status": "proved",
   "theorems": [
    "Tlsn.C14_single_kind_complete",
    "Tlsn.C14_first_kind_complete",
    "Tlsn.C14_cross_kind_incomplete"
   ],
   "note": "Completeness of the greedy cover for one kind; counterexample for two kinds (disagreement 3)."
  },
  {
   "property": "C15",
   "status": "proved",
   "theorems": [
    "Tlsn.C15_has_hash",
    "Tlsn.C15_request_exact",
    "Tlsn.C15_in_bounds",
    "Tlsn.C15_call_fails_iff"
   ],
   "note": "Commit configuration builder. Induction over call sequences; the hash set's order is an arbitrary permutation."
  },
  {
   "property": "C16",
   "status": "proved",
   "theorems": [
    "Tlsn.C16_reveal_exact",
    "Tlsn.C16_in_bounds",
    "Tlsn.C16_reveal_all",
    "Tlsn.C16_other_fields",
    "Tlsn.C16_call_fails_iff"
   ],
   "note": "Prove configuration builder. Induction over call sequences."
  },
  {
   "property": "C17",
   "status": "partial",
   "theorems": [
    "Tlsn.C17_build_iff",
    "Tlsn.C17_deserialize_iff",
    "Tlsn.C17_derive_no_panic",
    "Tlsn.C17_derive_partial",
    "Tlsn.C17_explicit_records_not_reserved",
    "Tlsn.C17_limit_wraps"
   ],
   "note": "Configuration, (de)serialization and derivation of the protocol configuration with wrapping arithmetic. Partial: see disagreements 4 and 5. Missing: explicit record counts and limits near the word size, where the property is false."
  },
  {
   "property": "C18",
   "status": "proved",
   "theorems": [
    "Tlsn.C18_proof_exists_iff",
    "Tlsn.C18_complete"
   ],
   "note": "The layered Merkle tree algorithm of `rs_merkle`, for any number of leaves. Induction over layers."
  },
  {
   "property": "C19",
   "status": "proved",
   "theorems": [
    "Tlsn.C19_binding",
    "Tlsn.C19_duplicates_rejected",
    "Tlsn.C19_empty_rejected"
   ],
   "note": "Induction over layers with an explicit-collision disjunct."
  },
  {
   "property": "C20",
   "status": "partial",
   "theorems": [
    "Tlsn.C20_contents_partial",
    "Tlsn.C20_forged_presentation",
    "Tlsn.C20_forgery",
    "Tlsn.C20_merkle_graft",
    "Tlsn.C20_merkle_extra_leaf_if_unchecked",
    "Tlsn.C20_merkle_values_partial"
   ],
   "note": "Generic forgery for any hash with outputs of at most 64 bytes (disagreement 1); the positive theorem holds under a condition on lengths the code does not check. Partial. Missing: the property is false; the theorem adds the length condition the code does not check."
  },
  {
   "property": "C21",
   "status": "proved",
   "theorems": [
    "Tlsn.C21_complete"
   ],
   "note": "C18 composed with the encoding of body fields."
  },
  {
   "property": "C22",
   "status": "proved",
   "theorems": [
    "Tlsn.C22_verify_iff",
    "Tlsn.C22_header_signed",
    "Tlsn.C22_body_bound"
   ],
   "note": "Acceptance as an iff; binding to the signed header through C19."
  },
  {
   "property": "C23",
   "status": "proved",
   "theorems": [
    "Tlsn.C23_identity_iff",
    "Tlsn.C23_verify_iff",
    "Tlsn.C23_no_panic",
    "Tlsn.C23_sound",
    "Tlsn.C23_issued",
    "Tlsn.C23_complete",
    "Tlsn.C23_parts_independent"
   ],
   "note": "Acceptance as an iff; soundness from the parts' soundness; completeness of the whole request, attestation, presentation protocol."
  },
  {
   "property": "C24",
   "status": "proved",
   "theorems": [
    "Tlsn.C24_verify_iff",
    "Tlsn.C24_message_binds"
   ],
   "note": "Acceptance as an iff over an abstract certificate verifier and signature check; injectivity of the signed message."
  },
  {
   "property": "C25",
   "status": "proved",
   "theorems": [
    "Tlsn.C25_validate_iff",
    "Tlsn.C25_complete",
    "Tlsn.C25_body_not_checked"
   ],
   "note": "Acceptance as an iff; witness for the missing root check (disagreement 2)."
  },
  {
   "property": "C26",
   "status": "proved",
   "theorems": [
    "Tlsn.C26_accepts_iff",
    "Tlsn.C26_round_trip",
    "Tlsn.C26_eq_iff"
   ],
   "note": "Round trip and injectivity of `Hash` values."
  },
  {
   "property": "C27",
   "status": "proved",
   "theorems": [
    "Tlsn.C27_keystream_blocks",
    "Tlsn.C27_received_nonce_repeats",
    "Tlsn.C27_nonce_counter_once",
    "Tlsn.C27_released_nonces",
    "Tlsn.C27_committed_sequence"
   ],
   "note": "State machine of the record layer (encrypt, decrypt, flush, commit, failures). Invariant by induction over histories."
  },
  {
   "property": "C28",
   "status": "partial",
   "theorems": [
    "Tlsn.C28_limit_wraps",
    "Tlsn.C28_small_records_exhaust",
    "Tlsn.C28_limits_partial"
   ],
   "note": "Same state machine. Partial: lengths of 2^63 and more wrap (disagreement 7). Missing: lengths of 2^63 and more, where the property is false."
  },
  {
   "property": "C29",
   "status": "proved",
   "theorems": [
    "Tlsn.C29_failed_flush_loses",
    "Tlsn.C29_rejected_push_skips",
    "Tlsn.C29_empty_record_fails",
    "Tlsn.C29_order",
    "Tlsn.C29_no_gap",
    "Tlsn.C29_commit",
    "Tlsn.C29_drained",
    "Tlsn.C29_gate"
   ],
   "note": "Same state machine with a ghost history."
  },
  {
   "property": "C30",
   "status": "proved",
   "theorems": [
    "Tlsn.C30_ghash",
    "Tlsn.C30_tags",
    "Tlsn.C30_too_long",
    "Tlsn.C30_key_length"
   ],
   "note": "Polynomial evaluation by shares of powers in a commutative ring of characteristic two; ideal share conversion is a hypothesis; composed with the concrete GF(2^128) of GCM."
  },
  {
   "property": "C31",
   "status": "proved",
   "theorems": [
    "Tlsn.C31_ghash_input",
    "Tlsn.C31_aad",
    "Tlsn.C31_aad_truncates"
   ],
   "note": "Injectivity over byte lists, with the truncation witness."
  },
  {
   "property": "C32",
   "status": "proved",
   "theorems": [
    "Tlsn.C32_accept_iff",
    "Tlsn.C32_references"
   ],
   "note": "`alloc_keystream`, `alloc_plaintext`, the ZK proof's checks, over an ideal VM; position arithmetic by induction over records."
  },
  {
   "property": "C33",
   "status": "proved",
   "theorems": [
    "Tlsn.C33_output",
    "Tlsn.C33_rejects"
   ],
   "note": "Decision logic of `verify` on arbitrary prover messages."
  },
  {
   "property": "C34",
   "status": "proved",
   "theorems": [
    "Tlsn.C34_crash",
    "Tlsn.C34_panic_iff",
    "Tlsn.C34_in_bounds_no_panic"
   ],
   "note": "Panic value in the model; exact panic condition and a concrete request (disagreement 6)."
  },
  {
   "property": "C35",
   "status": "proved",
   "theorems": [
    "Tlsn.C35_accept_iff",
    "Tlsn.C35_tags_determined"
   ],
   "note": "`verify_tags` over an ideal VM; fold over records."
  },
  {
   "property": "C36",
   "status": "proved",
   "theorems": [
    "Tlsn.C36_integers",
    "Tlsn.C36_network_order",
    "Tlsn.C36_payloads",
    "Tlsn.C36_vectors",
    "Tlsn.C36_enums",
    "Tlsn.C36_truncation"
   ],
   "note": "Codec of integers, payloads, vectors, enums. Round trip; truncation witness."
  },
  {
   "property": "C37",
   "status": "proved",
   "theorems": [
    "Tlsn.C37_deframed",
    "Tlsn.C37_unique",
    "Tlsn.C37_chunking",
    "Tlsn.C37_progress",
    "Tlsn.C37_other_versions",
    "Tlsn.C37_pending"
   ],
   "note": "The deframer refined to a whole-stream parser, for all chunkings."
  },
  {
   "property": "C38",
   "status": "proved",
   "theorems": [
    "Tlsn.C38_bounds",
    "Tlsn.C38_fragment",
    "Tlsn.C38_fragment_borrow",
    "Tlsn.C38_deframe"
   ],
   "note": "Fragmenter lemmas composed with C37."
  },
  {
   "property": "C39",
   "status": "proved",
   "theorems": [
    "Tlsn.C39_joined",
    "Tlsn.C39_unique",
    "Tlsn.C39_fragmentation"
   ],
   "note": "The handshake joiner refined to a whole-stream parser."
  },
  {
   "property": "C40",
   "status": "proved",
   "theorems": [
    "Tlsn.C40_fifo",
    "Tlsn.C40_delivers",
    "Tlsn.C40_limit"
   ],
   "note": "The chunked buffer refined to a byte list."
  },
  {
   "property": "C41",
   "status": "partial",
   "theorems": [
    "Tlsn.C41_hello_retry_random",
    "Tlsn.C41_finished_hashes",
    "Tlsn.C41_unique",
    "Tlsn.C41_fragmentation",
    "Tlsn.C41_session_hash_partial",
    "Tlsn.C41_session_hash_with_ticket",
    "Tlsn.C41_no_hash_without_streams",
    "Tlsn.C41_accepts"
   ],
   "note": "Building a TLS transcript from the two raw streams; hash inputs against RFC 5246/7627 order. Partial: session hash with a ticket (disagreement 9). Missing: the session hash when the server sends a ticket, where the property is false."
  },
  {
   "property": "C42",
   "status": "proved",
   "theorems": [
    "Tlsn.C42_records",
    "Tlsn.C42_given_iff",
    "Tlsn.C42_given_kept",
    "Tlsn.C42_records_of_wire",
    "Tlsn.C42_records_unique",
    "Tlsn.C42_to_transcript",
    "Tlsn.C42_to_transcript_error",
    "Tlsn.C42_to_transcript_total",
    "Tlsn.C42_transcript_of_streams",
    "Tlsn.C42_surplus_ignored",
    "Tlsn.C42_verify_data",
    "Tlsn.C42_accessors_total",
    "Tlsn.C42_build_panics_only_on_empty",
    "Tlsn.C42_empty_records_panic"
   ],
   "note": "Record numbering, application data distribution, accessors. Exact acceptance; panics only for empty lists (disagreement 10)."
  },
  {
   "property": "C43",
   "status": "proved",
   "theorems": [
    "Tlsn.C43_panics",
    "Tlsn.C43_hello_first_panics",
    "Tlsn.C43_accepts"
   ],
   "note": "The follower's message loop over ideal VM, PRF and key exchange. Induction over message sequences; exact panics (disagreement 11)."
  },
  {
   "property": "C44",
   "status": "proved",
   "theorems": [
    "Tlsn.C44_alloc_once",
    "Tlsn.C44_alloc_mode",
    "Tlsn.C44_alloc",
    "Tlsn.C44_session_keys",
    "Tlsn.C44_client_finished",
    "Tlsn.C44_server_finished",
    "Tlsn.C44_flush_loop",
    "Tlsn.C44_reduced_loop_forever",
    "Tlsn.C44_session_hash_length",
    "Tlsn.C44_server_random_first",
    "Tlsn.C44_software_prf"
   ],
   "note": "HMAC, P_hash, both PRF modes over an ideal VM, against RFC 5246/7627. Invariant over histories; the reduced mode's endless loop (disagreement 12)."
  },
  {
   "property": "C45",
   "status": "proved",
   "theorems": [
    "Tlsn.C45_shares",
    "Tlsn.C45_same_x",
    "Tlsn.C45_identity",
    "Tlsn.C45_circuit",
    "Tlsn.C45_check",
    "Tlsn.C45_exchange",
    "Tlsn.C45_finalize",
    "Tlsn.C45_order",
    "Tlsn.C45_failed",
    "Tlsn.C45_client_key"
   ],
   "note": "Mathlib's Weierstrass group law on P-256's equation for any prime field; the circuit on bit vectors; state machine of both parties."
  },
  {
   "property": "C46",
   "status": "proved",
   "theorems": [
    "Tlsn.C46_consume",
    "Tlsn.C46_used_once",
    "Tlsn.C46_assign"
   ],
   "note": "Block lists; histories of `consume`."
  },
  {
   "property": "C47",
   "status": "proved",
   "theorems": [
    "Tlsn.C47_sound",
    "Tlsn.C47_translates",
    "Tlsn.C47_no_alias",
    "Tlsn.C47_insert_panics",
    "Tlsn.C47_empty_allocation"
   ],
   "note": "`MemoryMap` with any binary search that meets its documentation."
  },
  {
   "property": "C48",
   "status": "proved",
   "theorems": [
    "Tlsn.C48_from_iter",
    "Tlsn.C48_get",
    "Tlsn.C48_index"
   ],
   "note": "`RangeMap` as a list of items."
  },
  {
   "property": "C49",
   "status": "proved",
   "theorems": [
    "Tlsn.C49_verify_transcript",
    "Tlsn.C49_refused"
   ],
   "note": "Decision logic of the final check of both parties."
  },
  {
   "property": "C50",
   "status": "proved",
   "theorems": [
    "Tlsn.Sdk.C50_flags_ignored",
    "Tlsn.Sdk.C50_no_pattern",
    "Tlsn.Sdk.C50_path_without_type",
    "Tlsn.Sdk.C50_plan",
    "Tlsn.Sdk.C50_plan_exists",
    "Tlsn.Sdk.C50_reveals",
    "Tlsn.Sdk.C50_commits",
    "Tlsn.Sdk.C50_request",
    "Tlsn.Sdk.C50_selected",
    "Tlsn.Sdk.C50_succeeds_iff",
    "Tlsn.Sdk.C50_inside"
   ],
   "note": "`extract_*`, `compute_reveal`, `reveal` over parsed messages with spans. Position-wise specification; composed with C15/C16."
  },
  {
   "property": "C51",
   "status": "partial",
   "theorems": [
    "Tlsn.Sdk.C51_element_revealed",
    "Tlsn.Sdk.C51_empty_path",
    "Tlsn.Sdk.C51_leading_dot",
    "Tlsn.Sdk.C51_hides_member_partial",
    "Tlsn.Sdk.C51_array_element"
   ],
   "note": "Same model. Partial: the option fails for array elements and two path forms (disagreement 13). Missing: array elements and paths \"\" and \".name\", where the property is false."
  },
  {
   "property": "C52",
   "status": "proved",
   "theorems": [
    "Tlsn.C52_length_exact_iff",
    "Tlsn.C52_length_wraps"
   ],
   "note": "Arithmetic modulo 2^32."
  },
  {
   "property": "C53",
   "status": "proved",
   "theorems": [
    "Tlsn.C53_fields_injective",
    "Tlsn.C53_header_injective",
    "Tlsn.C53_opening_injective"
   ],
   "note": "BCS and domain separation. Injectivity."
  },
  {
   "property": "C54",
   "status": "proved",
   "theorems": [
    "Tlsn.C54_contents",
    "Tlsn.C54_builds_iff",
    "Tlsn.C54_default_refuses_extensions"
   ],
   "note": "Attestation builder: induction over setter histories."
  },
  {
   "property": "C55",
   "status": "proved",
   "theorems": [
    "Tlsn.C55_is_complete_iff",
    "Tlsn.C55_contains_iff",
    "Tlsn.C55_iter"
   ],
   "note": "Exact characterisations."
  },
  {
   "property": "C56",
   "status": "proved",
   "theorems": [
    "Tlsn.C56_request_contents"
   ],
   "note": "Request builder: exact characterisation."
  },
  {
   "property": "C57",
   "status": "proved",
   "theorems": [
    "Tlsn.C57_leader_authentic",
    "Tlsn.C57_commit_public_unchecked"
   ],
   "note": "Record layer with GHASH tags: what is delivered was authentic; witness for the gap at `commit` (disagreement 8)."
  },
  {
   "property": "C58",
   "status": "proved",
   "theorems": [
    "Tlsn.C58_within_limits"
   ],
   "note": "Liveness of an honest session within its limits: no call fails."
  },
  {
   "property": "C59",
   "status": "proved",
   "theorems": [
    "Tlsn.C59_agreement"
   ],
   "note": "Leader and follower record layers in lock step; relation between the two states."
  },
  {
   "property": "C60",
   "status": "partial",
   "theorems": [
    "Tlsn.C60_wire_type_partial",
    "Tlsn.C60_type_alias",
    "Tlsn.C60_alias_committed"
   ],
   "note": "Partial: the follower trusts the leader's content type (disagreement 8). Missing: record types that are aliases of application data, where the property is false."
  },
  {
   "property": "C61",
   "status": "proved",
   "theorems": [
    "Tlsn.C61_same_view",
    "Tlsn.C61_message"
   ],
   "note": "Relational proof over two provers."
  },
  {
   "property": "C62",
   "status": "proved",
   "theorems": [
    "Tlsn.C62_in_step"
   ],
   "note": "Simulation between the prover's and the verifier's VM."
  },
  {
   "property": "C63",
   "status": "proved",
   "theorems": [
    "Tlsn.C63_honest_accepted",
    "Tlsn.C63_secrets_open"
   ],
   "note": "Honest completeness of `prove`/`verify` and of the commitments' openings."
  },
  {
   "property": "C64",
   "status": "proved",
   "theorems": [
    "Tlsn.C64_identity_may_be_missing",
    "Tlsn.C64_flag_ignored"
   ],
   "note": "Verifier's decision logic; concrete witness (disagreement 6)."
  },
  {
   "property": "C65",
   "status": "proved",
   "theorems": [
    "Tlsn.C65_exact",
    "Tlsn.C65_injective",
    "Tlsn.C65_in_stream",
    "Tlsn.C65_extensions",
    "Tlsn.C65_layout_hello",
    "Tlsn.C65_layout_message",
    "Tlsn.C65_layout_certificate",
    "Tlsn.C65_server_hello_without_extensions_rejected",
    "Tlsn.C65_client_hello_without_extensions_rejected"
   ],
   "note": "All TLS 1.2 handshake messages of `tls-core`: parse and encode are inverse on exactly the representable messages."
  },
  {
   "property": "C66",
   "status": "proved",
   "theorems": [
    "Tlsn.C66_hash_of_received_bytes",
    "Tlsn.C66_hash_of_sent_bytes",
    "Tlsn.C66_buffering",
    "Tlsn.C66_retry"
   ],
   "note": "`HandshakeHash` composed with C39 and C65."
  },
  {
   "property": "C67",
   "status": "proved",
   "theorems": [
    "Tlsn.C67_fields",
    "Tlsn.C67_unique",
    "Tlsn.C67_signed_bytes"
   ],
   "note": "Fields of a built TLS transcript against the handshake on the wire."
  },
  {
   "property": "C68",
   "status": "proved",
   "theorems": [
    "Tlsn.C68_session_keys",
    "Tlsn.C68_keys_available"
   ],
   "note": "C44 and C45 composed with the server's own computation."
  },
  {
   "property": "C69",
   "status": "proved",
   "theorems": [
    "Tlsn.C69_transcript",
    "Tlsn.C69_finish_once"
   ],
   "note": "The leader's calls as a state machine over the layer, PRF and key exchange models; induction over call sequences."
  },
  {
   "property": "C70",
   "status": "proved",
   "theorems": [
    "Tlsn.C70_agreement"
   ],
   "note": "Relation between leader and follower along the leader's messages."
  },
  {
   "property": "C71",
   "status": "proved",
   "theorems": [
    "Tlsn.C71_messages_hide_data"
   ],
   "note": "Relational proof: two leaders with different application data of equal lengths send the same messages."
  },
  {
   "property": "C72",
   "status": "proved",
   "theorems": [
    "Tlsn.C72_sound",
    "Tlsn.C72_published",
    "Tlsn.C72_secret_until_end"
   ],
   "note": "The dual-execution VM with an arbitrary (malicious) MPC VM and an ideal ZK VM; invariant over histories."
  },
  {
   "property": "C73",
   "status": "partial",
   "theorems": [
    "Tlsn.Sdk.C73_output_iff",
    "Tlsn.Sdk.C73_follows_request",
    "Tlsn.Sdk.C73_openings_partial",
    "Tlsn.Sdk.C73_single_range",
    "Tlsn.Sdk.C73_order_lost",
    "Tlsn.Sdk.C73_duplicate_dropped"
   ],
   "note": "`build_reveal_output` over the honest prover output of C63. Partial: order and duplicates (disagreement 14). Missing: the order of the openings, where the property is false."
  },
  {
   "property": "C74",
   "status": "proved",
   "theorems": [
    "Tlsn.Sdk.C74_message_exact",
    "Tlsn.Sdk.C74_message_total",
    "Tlsn.Sdk.C74_transcript",
    "Tlsn.Sdk.C74_selective",
    "Tlsn.Sdk.C74_withhold",
    "Tlsn.Sdk.C74_padding",
    "Tlsn.Sdk.C74_array_whole"
   ],
   "note": "Default HTTP and JSON committers over parsed documents; mutual induction over JSON values."
  },
  {
   "property": "C75",
   "status": "proved",
   "theorems": [
    "Tlsn.Sdk.C75_accepts_iff",
    "Tlsn.Sdk.C75_protocol_bounded",
    "Tlsn.Sdk.C75_record_limit_bypassed",
    "Tlsn.Sdk.C75_no_limit_refuses",
    "Tlsn.Sdk.C75_lengths"
   ],
   "note": "SDK verifier's checks of the proposal; arithmetic of the derived configuration (disagreement 15)."
  },
  {
   "property": "C76",
   "status": "proved",
   "theorems": [
    "Tlsn.Sdk.C76_prover_order",
    "Tlsn.Sdk.C76_prover_failure_final",
    "Tlsn.Sdk.C76_reveal_once",
    "Tlsn.Sdk.C76_prover_succeeds",
    "Tlsn.Sdk.C76_small_limit",
    "Tlsn.Sdk.C76_complete_lost",
    "Tlsn.Sdk.C76_verifier_order",
    "Tlsn.Sdk.C76_verifier_failure_final"
   ],
   "note": "SDK prover and verifier as state machines; invariant over call sequences including dropped futures (disagreement 16)."
  },
  {
   "property": "C77",
   "status": "proved",
   "theorems": [
    "Tlsn.Client.C77_authenticated"
   ],
   "note": "The client's connection and TLS 1.2 states as a program over an event log; every call of every history keeps an invariant relating the state to the events of one honest session (`Client/Spec`)."
  },
  {
   "property": "C78",
   "status": "proved",
   "theorems": [
    "Tlsn.Client.C78_received",
    "Tlsn.Client.C78_records",
    "Tlsn.Client.C78_sent",
    "Tlsn.Client.C78_wire",
    "Tlsn.Client.C78_protected"
   ],
   "note": "Ghost fluxes of bytes in and out, kept by each function (`Client/Flow*`); deframer from C37, fragmenter from C38. Data in unprotected records is not delivered: Client/Unprotected.lean (`C78_protected`), a second invariant: either no such record was taken, or the connection has failed before the change of cipher spec."
  },
  {
   "property": "C79",
   "status": "proved",
   "theorems": [
    "Tlsn.Client.C79_epochs"
   ],
   "note": "From the same invariant: what was allowed when each event happened."
  },
  {
   "property": "C80",
   "status": "partial",
   "theorems": [
    "Tlsn.Client.C80_final_partial",
    "Tlsn.Client.C80_same_error_false"
   ],
   "note": "The failed state is absorbing; which errors are kept (disagreement 18). Partial: errors returned by `?` are not kept. Missing: which error is returned after a failure of the leader or a corrupt record, where the property is false."
  },
  {
   "property": "C81",
   "status": "proved",
   "theorems": [
    "Tlsn.Client.C81_answers",
    "Tlsn.Client.C81_once",
    "Tlsn.Client.C81_leader"
   ],
   "note": "From the same invariant; the corollary discharges the hypothesis of C69 on the caller of the leader."
  },
  {
   "property": "C82",
   "status": "proved",
   "theorems": [
    "Tlsn.Client.C82_wants_read",
    "Tlsn.Client.C82_unauthenticated"
   ],
   "note": "Invariant on the close flag; the witness that an unauthenticated alert sets it (disagreement 19)."
  },
  {
   "property": "C83",
   "status": "proved",
   "theorems": [
    "Tlsn.Client.C83_completes"
   ],
   "note": "Symbolic execution of every state on the messages of an arbitrary acceptable session; converse of C77."
  },
  {
   "property": "C84",
   "status": "proved",
   "theorems": [
    "Tlsn.Drive.C84_streams",
    "Tlsn.Drive.C84_settled"
   ],
   "note": "A function per step of the prover's poll loop; the schedule, the socket and the readiness of each future are inputs. The pipes are byte queues. Invariant that ghost histories are the concatenation of what was moved and what waits; then C77 and C78."
  },
  {
   "property": "C85",
   "status": "proved",
   "theorems": [
    "Tlsn.Drive.C85_committed",
    "Tlsn.Drive.C85_once",
    "Tlsn.Drive.C85_terminated",
    "Tlsn.Drive.C85_close_notify"
   ],
   "note": "Invariants over the same runs: which state of the client implies what about the pipes, the connection and the leader's events; the count of closing alerts."
  },
  {
   "property": "C86",
   "status": "partial",
   "theorems": [
    "Tlsn.Drive.C86_trailing_bytes",
    "Tlsn.Drive.C86_application_gone",
    "Tlsn.Drive.C86_eof_in_handshake",
    "Tlsn.Drive.C86_returns_partial"
   ],
   "note": "Positive: a measure on the client's states bounds the depth of `poll`. The full claim is false in three ways, each a theorem about all schedules: the server closes during the handshake, bytes after the server's closing alert, an application that is gone. Missing: a server that closes during the handshake, bytes after its closing alert, an application that is gone: the property is false."
  },
  {
   "property": "C87",
   "status": "partial",
   "theorems": [
    "Tlsn.Drive.C87_control_partial",
    "Tlsn.Drive.C87_ignored"
   ],
   "note": "Ghost list of what the leader was told; invariant that the client's copy is its last entry. False after the application has closed its side (`C87_ignored`). Missing: choices made after the application has closed its side, where the property is false."
  },
  {
   "property": "C88",
   "status": "proved",
   "theorems": [
    "Tlsn.Proxy.C88_faithful",
    "Tlsn.Proxy.C88_complete",
    "Tlsn.Proxy.C88_time",
    "Tlsn.Proxy.C88_ends"
   ],
   "note": "`futures::io::copy` as a machine with phases, a history is the list of results of the calls on the sockets; invariant over histories."
  },
  {
   "property": "C89",
   "status": "proved",
   "theorems": [
    "Tlsn.Proxy.C89_accepted",
    "Tlsn.Proxy.C89_accepts",
    "Tlsn.Proxy.C89_sent_tags_unchecked"
   ],
   "note": "PRF, key memory and verify-data checks run on the ideal machine; the run is reduced to `Genuine`, which mentions only bytes, the PRF, AES and GCM. Both directions proved. `C89_sent_tags_unchecked`: tags of sent records are not checked."
  },
  {
   "property": "C90",
   "status": "partial",
   "theorems": [
    "Tlsn.Proxy.C90_panics_iff_partial"
   ],
   "note": "From C88, C89 and the builder's panic conditions. False when the prover sends nothing. Missing: a prover that sends nothing, where the property is false."
  },
  {
   "property": "C91",
   "status": "proved",
   "theorems": [
    "Tlsn.Proxy.C91_revealed"
   ],
   "note": "C89 composed with C33: the key memory that the proxy leaves is the one the proving phase starts from."
  },
  {
   "property": "C92",
   "status": "proved",
   "theorems": [
    "Tlsn.Proxy.C92_prover_agrees"
   ],
   "note": "The common part of the two `finalize` run on the prover's transcript, whose records are those of the verifier with plaintexts filled in."
  },
  {
   "property": "C93",
   "status": "partial",
   "theorems": [
    "Tlsn.Proxy.C93_recorded",
    "Tlsn.Proxy.C93_final_partial",
    "Tlsn.Proxy.C93_output",
    "Tlsn.Proxy.C93_unread_fails",
    "Tlsn.Proxy.C93_late_data",
    "Tlsn.Proxy.C93_unread_data"
   ],
   "note": "The prover's loop with the client of the proxy mode as a machine over polls, with `rustls` as an arbitrary engine that takes no more than it is given; an invariant over histories. False for data written when the server closes. Missing: bytes sent after the server closed, where the property is false."
  },
  {
   "property": "C94",
   "status": "partial",
   "theorems": [
    "Tlsn.Proxy.C94_server_closed_partial",
    "Tlsn.Proxy.C94_eof_in_handshake"
   ],
   "note": "One poll from a reachable state in which the server has closed. False while the handshake lasts (concrete engine, every number of polls). Missing: a server that closes during the handshake, where the property is false."
  },
  {
   "property": "C95",
   "status": "proved",
   "theorems": [
    "Tlsn.Protocol.C95_every_output",
    "Tlsn.Protocol.C95_consistent",
    "Tlsn.Protocol.C95_rejected_no_effect",
    "Tlsn.Protocol.C95_failed_is_final"
   ],
   "note": "The verifier's states between statements as a machine over calls, with the verification of C33 inside; keys stay in the memory (it only grows), so C33 applies to each output."
  },
  {
   "property": "C96",
   "status": "proved",
   "theorems": [
    "Tlsn.Protocol.C96_all_rounds"
   ],
   "note": "Both parties' state machines joined by their messages; induction over the list of statements with the synchronisation of C62 and the growth of memory as the invariant."
  },
  {
   "property": "C97",
   "status": "proved",
   "theorems": [
    "Tlsn.Protocol.C97_agree",
    "Tlsn.Protocol.C97_rejected"
   ],
   "note": "Functions for the first messages of both parties, joined; case analysis over versions and decisions."
  },
  {
   "property": "C98",
   "status": "proved",
   "theorems": [
    "Tlsn.Protocol.C98_close_not_lost",
    "Tlsn.Protocol.C98_next_poll_closes",
    "Tlsn.Protocol.C98_only_if_closed",
    "Tlsn.Protocol.C98_channel_once"
   ],
   "note": "A transition system whose steps are the single accesses of the driver and of any number of closing threads to the shared flag and waker slot; an inductive invariant over all interleavings."
  },
  {
   "property": "C99",
   "status": "proved",
   "theorems": [
    "Tlsn.Protocol.C99_take_once",
    "Tlsn.Protocol.C99_take",
    "Tlsn.Protocol.C99_is_closed"
   ],
   "note": "The session as a machine over calls; induction over histories."
  },
  {
   "property": "C100",
   "status": "partial",
   "theorems": [
    "Tlsn.Demo.C100_shown_partial",
    "Tlsn.Protocol.C100_presentation_partial",
    "Tlsn.Protocol.C100_application_partial"
   ],
   "note": "The verifier's histories (C95), the notary that attests to an output, and C23, C10, C54 composed. Partial: inherits the condition of C20. Protocol/Presented.lean joins it with C131: from the caller of the TLS client to the reader of the presentation; PresentedExample.lean has a session that meets all hypotheses. Missing: presentations whose proof states another number of fields than were signed; for these the property is false (`C20_forged_presentation`)."
  },
  {
   "property": "C101",
   "status": "proved",
   "theorems": [
    "Tlsn.Protocol.C101_end_to_end"
   ],
   "note": "C96, C56, C54 and C23 composed."
  },
  {
   "property": "C102",
   "status": "proved",
   "theorems": [
    "Tlsn.Gcm.C102_aes_gcm_computes",
    "Tlsn.Gcm.C102_keystream_computes"
   ],
   "note": "The machine as a graph of calls with the value of each part for any inputs; AES with its key schedule, the keystream and AES-GCM as programs that build the graph. Invariant over histories (every block is a call with key, implicit nonce and two inputs), then evaluation of the graph."
  },
  {
   "property": "C103",
   "status": "proved",
   "theorems": [
    "Tlsn.Gcm.C103_resources",
    "Tlsn.Gcm.C103_both_parties"
   ],
   "note": "Refinement of the graph-building AES-GCM to the accounting of the record layer (`Aead`), which C25-C28 use, and a relation between the states of both parties over their histories."
  },
  {
   "property": "C104",
   "status": "proved",
   "theorems": [
    "Tlsn.Gcm.C104_shares_add_up"
   ],
   "note": "The graph of OneTimePadShared of both parties, evaluated."
  },
  {
   "property": "C105",
   "status": "partial",
   "theorems": [
    "Tlsn.Gcm.C105_last_key_before_partial",
    "Tlsn.Gcm.C105_later_keys_ignored",
    "Tlsn.Gcm.C105_set_key_has_no_effect"
   ],
   "note": "The key schedule that is kept. Partial: false of the code once something was allocated (disagreement 28). Missing: keys that are set after the first allocation; for these the property is false (`C105_set_key_has_no_effect`)."
  },
  {
   "property": "C106",
   "status": "partial",
   "theorems": [
    "Tlsn.Pki.C106_accepted",
    "Tlsn.Pki.C106_offered",
    "Tlsn.Pki.C106_recorded_partial",
    "Tlsn.Pki.C106_p384_rejected",
    "Tlsn.Pki.C106_proxy_recorded",
    "Tlsn.Pki.C106_tls13"
   ],
   "note": "webpki's checks of paths, names and raw signatures are parameters; the choice of algorithms, the order in which they are tried, the errors and the conversion to the recorded algorithm are modelled. Partial: false of the code for keys on P-384 (disagreement 29). Missing: keys on P-384, for which the property is false (`C106_p384_rejected`)."
  },
  {
   "property": "C107",
   "status": "proved",
   "theorems": [
    "Tlsn.Pki.C107_client",
    "Tlsn.Pki.C107_roots",
    "Tlsn.Pki.C107_verifier"
   ],
   "note": "The order of the checks, the clock, the loop over timestamps and the making of trust anchors are modelled; the theorems say what acceptance is equivalent to."
  },
  {
   "property": "C108",
   "status": "partial",
   "theorems": [
    "Tlsn.ClientAuth.C108_same_roots_partial",
    "Tlsn.Pki.C108_verifier_accepts_partial",
    "Tlsn.Pki.C108_p384_rejected"
   ],
   "note": "Joins the client's model (C77-C83), the leader's (C67-C70) and a verifier's (C106, C107): the calls on the leader are those of the client. Partial: false for keys on P-384 (disagreement 29). Missing: keys on P-384, for which the property is false (`C108_p384_rejected`)."
  },
  {
   "property": "C109",
   "status": "proved",
   "theorems": [
    "Tlsn.ClientAuth.C109_sequence",
    "Tlsn.ClientAuth.C109_sec1",
    "Tlsn.ClientAuth.C109_key"
   ],
   "note": "`ring`'s parsers are parameters; the wrapping of SEC1 keys is modelled and compared with a reader of DER written from X.690: it is read back, and no other encoding is read as the same key."
  },
  {
   "property": "C110",
   "status": "proved",
   "theorems": [
    "Tlsn.ClientAuth.C110_scheme",
    "Tlsn.ClientAuth.C110_certificate",
    "Tlsn.ClientAuth.C110_sign",
    "Tlsn.ClientAuth.C110_verify",
    "Tlsn.ClientAuth.C110_once",
    "Tlsn.ClientAuth.C110_accepted"
   ],
   "note": "Added to the invariant of C77-C81: what may precede a certificate, a signature and a certificate verify message. The signing keys and the choice of schemes are modelled, `ring`'s signatures are a parameter. ECDSA keys are only used with the hash of their curve's length."
  },
  {
   "property": "C111",
   "status": "proved",
   "theorems": [
    "Tlsn.ClientAuth.C111_config",
    "Tlsn.ClientAuth.C111_builder"
   ],
   "note": "The builder, the making of trust anchors, the resolver of client certificates and the client configuration as functions; with C106-C108."
  },
  {
   "property": "C112",
   "status": "proved",
   "theorems": [
    "Tlsn.Wasm.C112_order",
    "Tlsn.Wasm.C112_next",
    "Tlsn.Wasm.C112_waits",
    "Tlsn.Wasm.C112_asks",
    "Tlsn.Wasm.C112_failed",
    "Tlsn.Wasm.C112_end",
    "Tlsn.Wasm.C112_hyper",
    "Tlsn.Wasm.C112_hyper_adapter",
    "Tlsn.Wasm.C112_channel"
   ],
   "note": "The adapter as a state machine with a log of what happens at both sides; the answers of the JavaScript object are arbitrary. An invariant over all histories."
  },
  {
   "property": "C113",
   "status": "partial",
   "theorems": [
    "Tlsn.Wasm.C113_write_partial",
    "Tlsn.Wasm.C113_closed",
    "Tlsn.Wasm.C113_order_partial",
    "Tlsn.Wasm.C113_blind",
    "Tlsn.Wasm.C113_lost"
   ],
   "note": "The same machine; the promise of a write carries whether it will be fulfilled. Partial: the last sentence is false (disagreement 30). Missing: that a flush waits for the writes, and that a rejected promise is reported; both are false (`C113_lost`, `C113_blind`)."
  },
  {
   "property": "C114",
   "status": "proved",
   "theorems": [
    "Tlsn.Wasm.C114_config",
    "Tlsn.Wasm.C114_error",
    "Tlsn.Wasm.C114_new",
    "Tlsn.Wasm.C114_limits",
    "Tlsn.Wasm.C114_client",
    "Tlsn.Wasm.C114_verifier"
   ],
   "note": "The builders and conversions as functions with parsers as parameters; iff-characterisations of the result, joined with the TLS client's configuration (C111)."
  },
  {
   "property": "C115",
   "status": "proved",
   "theorems": [
    "Tlsn.Wasm.C115_calls",
    "Tlsn.Wasm.C115_refused",
    "Tlsn.Wasm.C115_once",
    "Tlsn.Wasm.C115_events",
    "Tlsn.Wasm.C115_progress",
    "Tlsn.Wasm.C115_percent",
    "Tlsn.Wasm.C115_reveal",
    "Tlsn.Wasm.C115_transcript"
   ],
   "note": "The class as a state machine around the SDK's (C76), with the events of its callback; a simulation and invariants over all histories."
  },
  {
   "property": "C116",
   "status": "proved",
   "theorems": [
    "Tlsn.SdkHttp.C116_accepts",
    "Tlsn.SdkHttp.C116_request",
    "Tlsn.SdkHttp.C116_javascript"
   ],
   "note": "The conversions of requests with hash maps as lists in any order and `hyper`'s parsers as parameters."
  },
  {
   "property": "C117",
   "status": "partial",
   "theorems": [
    "Tlsn.SdkHttp.C117_response_partial",
    "Tlsn.SdkHttp.C117_distinct_partial",
    "Tlsn.SdkHttp.C117_repeated",
    "Tlsn.SdkHttp.C117_javascript_partial"
   ],
   "note": "The header map of `http` and the conversion of responses. Partial: false for repeated headers (disagreement 31). Missing: the names of repeated headers, for which the property is false (`C117_repeated`)."
  },
  {
   "property": "C118",
   "status": "proved",
   "theorems": [
    "Tlsn.Signing.C118_signer",
    "Tlsn.Signing.C118_supported",
    "Tlsn.Signing.C118_call",
    "Tlsn.Signing.C118_ids",
    "Tlsn.Signing.C118_signs",
    "Tlsn.Signing.C118_accepted",
    "Tlsn.Signing.C118_attestation"
   ],
   "note": "Verif/Signing: identifiers, the map of signers as an association list, the three signers over an abstract curve whose laws (encodings are read back, signatures of a key verify) are hypotheses. Proved by induction over the calls; C118_attestation composes it with C21."
  },
  {
   "property": "C119",
   "status": "proved",
   "theorems": [
    "Tlsn.Signing.C119_accepts",
    "Tlsn.Signing.C119_separate",
    "Tlsn.Signing.C119_only_signed",
    "Tlsn.Signing.C119_header_signed"
   ],
   "note": "Verif/Signing: the three verifiers and their provider. `Valid` in Spec.lean is the documented meaning of each algorithm, C119_accepts proves the verifiers equal to it, C119_only_signed reduces the assumption of C22 (only the holder's headers are accepted) to unforgeability of digests and absence of collisions."
  },
  {
   "property": "C120",
   "status": "proved",
   "theorems": [
    "Tlsn.Sdk.C120_application",
    "Tlsn.Sdk.C120_output",
    "Tlsn.Wasm.C120_javascript"
   ],
   "note": "Verif/Sdk/Verify.lean and Verif/Wasm/Verifier.lean: the verifier's state machine (C75) with the protocol of C95 and the compressed message of C03 inside, and the conversions to JavaScript. C120_output composes C33, C03 and C75; C120_javascript adds the roots of C114 and the certificates of C107. Sdk/Application.lean: `C120_application` joins this with C131: the output of the SDK's verifier is about the bytes that the application behind the prover wrote and read."
  },
  {
   "property": "C121",
   "status": "proved",
   "theorems": [
    "Tlsn.Wasm.C121_honest",
    "Tlsn.Wasm.C121_rejected"
   ],
   "note": "Verif/Wasm/Verifier.lean: JavaScript's `reveal` through the SDK's configuration (C50), the honest session (C63), the compressed message and back (C02), and the verifier of C120. The hypotheses on the two VMs are those of C63."
  },
  {
   "property": "C122",
   "status": "proved",
   "theorems": [
    "Tlsn.Wasm.C122_handlers",
    "Tlsn.Wasm.C122_output",
    "Tlsn.Wasm.C122_documented_fields",
    "Tlsn.Wasm.C122_plugin",
    "Tlsn.Wasm.C122_null"
   ],
   "note": "Verif/Wasm/Plugin.lean: the values of JavaScript that `serde_wasm_bindgen` makes and reads for the types of `compute_reveal` and `Prover.reveal`. Reading after writing is the identity, type by type, also through JSON; C122_plugin composes this with C50 and C121. C122_documented_fields is the disagreement 33."
  },
  {
   "property": "C123",
   "status": "proved",
   "theorems": [
    "Tlsn.Proxy.C123_config",
    "Tlsn.Proxy.C123_identity"
   ],
   "note": "Verif/Proxy/Identity.lean: the configuration of rustls in the proxy mode as a function of the provider's suites and groups; rustls itself is specified by what it checks of a server (`Shown.Accepted`). C123_config computes it; C123_identity composes it with C67 (parse of the records), C89 and C106, C107 for the verifier."
  },
  {
   "property": "C124",
   "status": "proved",
   "theorems": [
    "Tlsn.Sdk.C124_filter",
    "Tlsn.Sdk.C124_installed",
    "Tlsn.Sdk.C124_determined",
    "Tlsn.Sdk.C124_default",
    "Tlsn.Sdk.C124_span_events_ignored"
   ],
   "note": "Verif/Sdk/Logging.lean: the filter as a function of target and level, with the ASCII case folding; the proof characterizes `split(\"::\")`, `eq_ignore_ascii_case` and `find_map`. C124_span_events_ignored is the disagreement 34."
  },
  {
   "property": "C125",
   "status": "proved",
   "theorems": [
    "Tlsn.C125_no_panic",
    "Tlsn.C125_same_keys"
   ],
   "note": "Verif/Deap/Keys.lean: `translate_keys` on the model of the dual-execution machine (C47). C125_no_panic and C125_same_keys follow from its invariant over all sequences of calls; `SessionKeys.get` names the five keys."
  },
  {
   "property": "C126",
   "status": "proved",
   "theorems": [
    "Tlsn.Gcm.C126_directions"
   ],
   "note": "Verif/Gcm/Layer.lean, LayerProps.lean: the three ciphers of the record layer on the machine of C102, with `set_keys`, `alloc` and the part of `alloc_session` after the PRF. C126_directions is by induction over interleaved uses of both ciphers, with the values of the graph as in C102."
  },
  {
   "property": "C127",
   "status": "proved",
   "theorems": [
    "Tlsn.Gcm.C127_leader_has_server_key",
    "Tlsn.Gcm.C127_follower_has_no_key",
    "Tlsn.Gcm.C127_follower_learns_nothing",
    "Tlsn.Gcm.C127_any_order"
   ],
   "note": "Verif/Gcm/LayerProps.lean: the leader's own AES-GCM with its states. C127_leader_has_server_key evaluates the masked graph; C127_follower_learns_nothing shows that both parties have the same graph and that for every key there is exactly one pad that explains what is decoded (one-time pad); C127_any_order is by induction over calls."
  },
  {
   "property": "C128",
   "status": "partial",
   "theorems": [
    "Tlsn.C128_closed_partial",
    "Tlsn.C128_truncation_accepted",
    "Tlsn.Drive.C128_committed_without_alert"
   ],
   "note": "Verif/Drive/Truncate.lean: on `verify_transcript` (C49) and the prover's future (C85). `ClosedByAlert` says what RFC 5246 asks for. C128_truncation_accepted shows that the check accepts every truncation after a record of application data; C128_committed_without_alert is a run of the prover's future that ends in the middle of a record; C128_closed_partial is the part that holds. Missing: directions that end with application data, for which the property is false (`C128_truncation_accepted`)."
  },
  {
   "property": "C129",
   "status": "proved",
   "theorems": [
    "Tlsn.Client.C129_transcript"
   ],
   "note": "Verif/Client/WithLeader.lean: `Backend` makes a leader (C69) the backend of the client (C77, C78): each call of the client is a call on the leader, and the answers in the client's history are the leader's (`Faithful`, C81). Both histories are then put together: the calls that C69 finds are events of the client, whose place in the handshake C77 gives. Client/LeaderExample.lean calculates a session that meets all hypotheses. Calls are performed as a whole; client futures that are dropped in the middle of a call are left out."
  },
  {
   "property": "C130",
   "status": "proved",
   "theorems": [
    "Tlsn.C130_in_transcript",
    "Tlsn.C130_all"
   ],
   "note": "Verif/Session/Delivered.lean: an invariant of the leader's steps (`LKept`): the records are what was handed out followed by what is in the buffers."
  },
  {
   "property": "C131",
   "status": "proved",
   "theorems": [
    "Tlsn.Protocol.C131_session",
    "Tlsn.Protocol.C131_output",
    "Tlsn.Protocol.C131_prover"
   ],
   "note": "Verif/Protocol/Application.lean: `Joint` is one session of client (C77, C78), leader (C69, C129), follower (C70) and verifier (C95). `C131_session` joins their theorems: the follower's records, decrypted in counter mode with the session's keys, are the leader's, which are the client's. `CounterMode` says that the encryption of the record layer is that of AES-GCM as the verifier calculates it (C103 proves it of the zkVM's translation). ApplicationExample.lean calculates a session that meets all hypotheses. Prover.lean puts the prover's future (C84) above the client: `C131_prover` is about the bytes that the application wrote to and read from the connection that `Prover::connect` gave it, in every schedule of polls; ProverExample.lean calculates such a run."
  },
  {
   "property": "C132",
   "status": "proved",
   "theorems": [
    "Tlsn.Client.C132_declined",
    "Tlsn.Client.C132_unexpected"
   ],
   "note": "Verif/Client/Renegotiation.lean: by calculation on `processPlain` and `processMain`, for all states."
  },
  {
   "property": "C133",
   "status": "proved",
   "theorems": [
    "Tlsn.Message.C133_text",
    "Tlsn.Message.C133_missing",
    "Tlsn.Message.C133_outside",
    "Tlsn.Message.C133_cover"
   ],
   "note": "Verif/Proof/Message.lean: the texts of the errors are modelled from `Display`; that a text determines its set is proved by reading numbers from the front. The derived `Debug` of the commitment kinds is a parameter."
  },
  {
   "property": "C134",
   "status": "partial",
   "theorems": [
    "Tlsn.Age.C134_age_partial",
    "Tlsn.Age.C134_session_partial",
    "Tlsn.Age.C134_adult_accepted",
    "Tlsn.Age.C134_anyone_accepted",
    "Tlsn.Age.C134_place_unchecked",
    "Tlsn.Age.C134_other_algorithm_panics"
   ],
   "note": "Verif/AgeExample: the Noir program with the functions of the date library it calls, and the checks of the verifier on the output of a session and on the bytes of the proof. Parameters: the proof system with its soundness and completeness as hypotheses (`Sound`, `Complete`), SHA-256, UTF-8; the calendar of `chrono` is modelled from its documentation. Dates.lean proves that the library's order of dates is the order of the calendar; Props.lean joins the checks with C95. Partial: C134_anyone_accepted and C134_place_unchecked show where the property is false. Missing: proof dates with a year from 2^31 on, and that the committed bytes are the date of birth, for which the property is false (`C134_anyone_accepted`, `C134_place_unchecked`)."
  },
  {
   "property": "C135",
   "status": "proved",
   "theorems": [
    "Tlsn.Protocol.C135_redacted",
    "Tlsn.Protocol.C135_found"
   ],
   "note": "Verif/Protocol/Redacted.lean: the compressed form has only the revealed bytes, so that the decoded transcript is zero elsewhere (`deserialize_zero`); joined with C95 by induction over the history. Used by C134 for the check of the host."
  },
  {
   "property": "C136",
   "status": "proved",
   "theorems": [
    "Tlsn.Demo.C136_basic",
    "Tlsn.Demo.C136_proxy",
    "Tlsn.Demo.C136_honest"
   ],
   "note": "Verif/Demo: the verifiers of crates/examples/basic and proxy from the proposal to the returned transcript; the commitment protocol for an accepted configuration is a function that leaves the verifier with keys (`KeepsKeys`; C131 is about it). C95, C135 and C96 applied. The presentation verifier of crates/examples/attestation is in Demo/Shown.lean as a corollary of C100 (`C100_shown_partial`: each byte shown is an X or the session's byte)."
  },
  {
   "property": "C137",
   "status": "proved",
   "theorems": [
    "Tlsn.Protocol.C137_prove",
    "Tlsn.Protocol.C137_reason",
    "Tlsn.Protocol.C137_msg_is_not_the_reason",
    "Tlsn.Protocol.C137_verify",
    "Tlsn.Protocol.C137_internal_is_not_a_bug",
    "Tlsn.Protocol.C137_same_calls",
    "Tlsn.Protocol.C137_same_prove",
    "Tlsn.Protocol.C137_round",
    "Tlsn.Protocol.C137_commit_prover",
    "Tlsn.Protocol.C137_commit_verifier",
    "Tlsn.Protocol.C137_commit_decision",
    "Tlsn.Protocol.C137_versions",
    "Tlsn.Protocol.C137_commit_reason",
    "Tlsn.Protocol.C137_success",
    "Tlsn.Proxy.C137_proxy_run",
    "Tlsn.Proxy.C137_proxy_finished"
   ],
   "note": "Verif/Protocol/Errors: the calls of Protocol/Model again, returning the error (kind, message, text of the source) of each site; the failures of the channel, the setup and the execution of the VM are inputs. Case analysis of each call against a specification of the kinds (`Means`), and a refinement: without the errors these are the calls of C95 and C96 (`C137_same_calls`, `C137_same_prove`). Proxy/Errors.lean gives the kinds of the errors of the verifier's `run` in proxy mode. The errors of `connect` and of `run` in MPC mode are not covered."
  },
  {
   "property": "C138",
   "status": "proved",
   "theorems": [
    "Tlsn.Sdk.C138_told",
    "Tlsn.Sdk.C138_accepted",
    "Tlsn.Sdk.C138_setup_text",
    "Tlsn.Sdk.C138_reveal_text"
   ],
   "note": "Verif/Sdk/Told: `setup` of both sides and the error of `reveal` with their texts, on top of the calls of C137; the first limit exceeded is specified as a position in the list of limits (`FirstExceeded`). That the texts can be told apart is a lemma on prefixes of strings. The prover's errors before the proposal is sent (its own configuration) are in C76 and not here."
  },
  {
   "property": "C139",
   "status": "proved",
   "theorems": [
    "Tlsn.Client.Name.C139_prefix_free",
    "Tlsn.Client.Name.C139_sni",
    "Tlsn.Client.Name.C139_addresses_not_told"
   ],
   "note": "Verif/Client/Name: the three functions of crates/tls-core/src/dns.rs. That a valid DNS name has at most 253 bytes is an assumption on the dependency (`ShortNames`). Injectivity of length-prefixed bytes. `C139_addresses_not_told`: for IP addresses, which cannot be made from outside, the comment on `encode` would be false."
  },
  {
   "property": "C140",
   "status": "partial",
   "theorems": [
    "Tlsn.Drive.C140_quiet_partial",
    "Tlsn.Drive.C140_polled_in_vain",
    "Tlsn.Drive.C140_choice_not_noticed",
    "Tlsn.Proxy.C140_proxy_quiet_partial",
    "Tlsn.Proxy.C140_proxy_left"
   ],
   "note": "Verif/Drive/Wake.lean: `Driver.wakes` follows the calls of `wake_by_ref` in a poll of the model of C84. Invariant: while the connection is at hand, its deframer has not failed, so that it has room (C37) and takes a byte. Verif/Proxy/Wake.lean does the same for the model of C93. What the socket, the pipes and the futures of the leader do with the waker of a poll in which they were pending is their contract, and not part of the model. `C140_choice_not_noticed` and `C140_polled_in_vain` are disagreements. Missing: that bytes of the application which are left wake the task (`C140_proxy_left`; it depends on the pipes), and choices to decrypt, which do not (`C140_choice_not_noticed`)."
  },
  {
   "property": "C141",
   "status": "proved",
   "theorems": [
    "Tlsn.Proxy.C141_alert",
    "Tlsn.Proxy.C141_logged",
    "Tlsn.Proxy.C141_sent"
   ],
   "note": "Verif/Proxy/Alert.lean: the connection of the model of C93, which is any connection, is instrumented with a list of the calls that send something. `C141_logged`: the instrument changes nothing. Invariants over all histories: what was written is what is in the list and what waits; the alert is last; the state of the client says whether it was asked for. `C141_sent`: a poll in a given state, step by step."
  },
  {
   "property": "C142",
   "status": "proved",
   "theorems": [
    "Tlsn.Sdk.C142_error",
    "Tlsn.Sdk.C142_entire",
    "Tlsn.Sdk.C142_source",
    "Tlsn.Sdk.C142_text"
   ],
   "note": "Verif/Sdk/CommitError.lean: the committer of C74 with the errors of crates/formats/src/http/commit.rs (kind, message, index, source; the error of the JSON committer is replaced by its source). The specification `Named` gives the positions each message stands for. `C142_error` by induction over the messages and headers; `C142_entire`: the entire message is committed to first, so the precise texts appear only for messages whose parts stick out of them; `C142_source`: forgetting the labels gives the committer of C74; `C142_text`: the texts are different, by their 21st and last characters. `set_index` is called nowhere in the crate, so `index()` is `None` in every error (part of `C142_error`)."
  }
 ]
}