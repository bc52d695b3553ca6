{"id": "C01", "title": "Redacting a transcript hides every byte that was not selected", "statement": "Transcript::to_partial(sent_idx, recv_idx) returns a partial transcript with the same lengths whose authenticated sets are exactly the requested sets, whose bytes at requested positions equal the original bytes, and whose value does not depend on any byte outside the requested sets: two transcripts of equal lengths that agree on the requested positions produce the same partial transcript.", "quantifier": "every pair of transcripts, every pair of in-bounds range sets", "why_tests_cant": "non-interference quantifies over all pairs of secrets; a test compares a handful of transcripts", "anchors": ["crates/core/src/transcript.rs: Transcript::to_partial, PartialTranscript"]}
{"id": "C02", "title": "Partial transcripts survive serialization", "statement": "Serializing a PartialTranscript (through its compressed form) and deserializing it again preserves both lengths, both authenticated sets and every authenticated byte; bytes that are not authenticated come back as zero; so the round trip is the identity exactly when all unauthenticated bytes are zero.", "quantifier": "every partial transcript whose authenticated sets lie inside the transcript", "why_tests_cant": "holds for every set of ranges (including adjacent, empty, boundary-touching ones) and every content", "anchors": ["crates/core/src/transcript.rs: CompressedPartialTranscript, From<PartialTranscript>, From<CompressedPartialTranscript>"]}
{"id": "C03", "title": "Deserialized partial transcripts are well formed", "statement": "Whatever bytes a peer sends, if deserialization of a partial transcript succeeds then both authenticated sets lie inside the declared lengths and the number of authenticated bytes equals the size of the set, and decompression does not panic; every honestly produced compressed form is accepted.", "quantifier": "every compressed partial transcript value a peer may send", "why_tests_cant": "attacker-controlled input space is unbounded", "anchors": ["crates/core/src/transcript.rs: CompressedPartialTranscriptUnchecked, TryFrom, SubsequenceUnchecked"]}
{"id": "C04", "title": "Merging partial transcripts", "statement": "union_transcript panics exactly when the lengths differ; otherwise the merged authenticated sets are the unions, every byte already authenticated keeps its value, newly authenticated bytes take the other transcript's value, all other bytes are unchanged; merging two redactions of the same transcript gives the redaction of the union, so the order of merging honest redactions does not matter.", "quantifier": "every pair of partial transcripts; every transcript and pair of range sets", "why_tests_cant": "algebraic law over all range sets and contents", "anchors": ["crates/core/src/transcript.rs: PartialTranscript::union_transcript"]}
{"id": "C05", "title": "Filling unauthenticated bytes never touches authenticated data", "statement": "set_unauthed(v) and set_unauthed_range(v, dir, range) leave the authenticated sets and every authenticated byte unchanged, set every unauthenticated byte (in the range) to v and nothing else.", "quantifier": "every partial transcript, fill byte, direction and range", "why_tests_cant": "frame condition over all positions", "anchors": ["crates/core/src/transcript.rs: PartialTranscript::set_unauthed, set_unauthed_range"]}
{"id": "C06", "title": "Reading a subsequence", "statement": "Transcript::get(dir, idx) returns None exactly when idx reaches past the end of that direction; otherwise it returns precisely the bytes at the positions of idx in ascending order, and Subsequence::new accepts a (set, data) pair exactly when the sizes agree.", "quantifier": "every transcript, direction and range set", "why_tests_cant": "boundary conditions for all range sets", "anchors": ["crates/core/src/transcript.rs: Transcript::get, Subsequence::new, Subsequence::copy_to"]}
{"id": "C07", "title": "An honest merge history never corrupts a partial transcript", "statement": "Starting from PartialTranscript::new and applying any sequence of union_subsequence (with subsequences of a fixed transcript), union_transcript (with redactions of that transcript), set_unauthed and set_unauthed_range, every byte reported as authenticated equals the byte of the fixed transcript, and the authenticated set is exactly the union of the sets merged in.", "quantifier": "every transcript and every finite history of operations", "why_tests_cant": "needs an invariant over unbounded histories", "anchors": ["crates/core/src/transcript.rs: PartialTranscript::{new,union_subsequence,union_transcript,set_unauthed}"]}
{"id": "C08", "title": "Merging a subsequence overwrites", "statement": "union_subsequence replaces authenticated bytes without complaint: there are partial transcripts and subsequences for which a byte that was authenticated with one value is afterwards reported as authenticated with another value (the doc only promises a merge; union_transcript, by contrast, never does this).", "quantifier": "existence; and for all inputs, the result equals the subsequence on its indices and the old value elsewhere", "why_tests_cant": "a contrast between two operations that only shows on conflicting inputs", "anchors": ["crates/core/src/transcript.rs: PartialTranscript::union_subsequence"]}
{"id": "C09", "title": "Transcript proof soundness", "statement": "If TranscriptProof::verify_with_provider(length, commitments) succeeds, the returned transcript has the declared lengths and each byte it reports as authenticated is covered by a hash secret whose (direction, index set, hash of the revealed bytes and blinder) is one of the attested commitments; the authenticated sets are exactly the union of those index sets, so no byte is reported as authenticated without an opened commitment, and none is opened without being reported.", "quantifier": "every proof (including forged ones), every commitment list, every hash provider", "why_tests_cant": "quantifies over adversarial proofs", "anchors": ["crates/core/src/transcript/proof.rs: TranscriptProof::verify_with_provider"]}
{"id": "C10", "title": "A verified transcript proof tells the truth or exhibits a collision", "statement": "If all attested commitments were honestly computed from a transcript T, then any proof that verifies against them shows, at every authenticated position, the byte of T; otherwise two different inputs with the same hash (a concrete collision, or a collision in blinder/plaintext framing) can be read off the proof.", "quantifier": "every transcript, every honest commitment list, every adversarial proof", "why_tests_cant": "computational binding reduced to an explicit collision for all adversaries", "anchors": ["crates/core/src/transcript/proof.rs: verify_with_provider", "crates/core/src/transcript/hash.rs: hash_plaintext"]}
{"id": "C11", "title": "Proof builder completeness", "statement": "Whenever TranscriptProofBuilder::build succeeds, the proof it returns is accepted by verify_with_provider against the commitments that the same secrets produced, and the verified transcript is exactly the redaction of the prover's transcript to the revealed sets.", "quantifier": "every transcript, secret list, reveal history and commitment-kind preference list", "why_tests_cant": "end-to-end round trip across two parties for all inputs", "anchors": ["crates/core/src/transcript/proof.rs: TranscriptProofBuilder::{reveal,commitment_kinds,build}, verify_with_provider"]}
{"id": "C12", "title": "A transcript proof discloses nothing beyond what was revealed", "statement": "The proof built by TranscriptProofBuilder contains no plaintext byte outside the revealed sets and contains no blinder of a commitment that covers any unrevealed byte: every included secret covers only revealed positions.", "quantifier": "every transcript, secret list and reveal history", "why_tests_cant": "privacy must hold for every combination of overlapping commitments", "anchors": ["crates/core/src/transcript/proof.rs: TranscriptProofBuilder::build"]}
{"id": "C13", "title": "Reveal requests are validated and failure leaves no trace", "statement": "TranscriptProofBuilder::reveal fails exactly when the range leaves the transcript or contains a byte no commitment of the known kinds covers, and a failing call changes nothing; a successful call adds exactly the range.", "quantifier": "every builder state, direction and range set", "why_tests_cant": "exact characterization of acceptance over all states", "anchors": ["crates/core/src/transcript/proof.rs: TranscriptProofBuilder::reveal_inner"]}
{"id": "C14", "title": "Covering revealed data with commitments", "statement": "If build reports success the revealed sets are exactly covered by the selected commitments; when one commitment kind alone can cover both revealed sets the build succeeds with that kind first in the preference list. The converse across kinds fails: a reveal that is coverable by combining overlapping commitments of two kinds can be refused.", "quantifier": "every secret list and query; existence for the failing case", "why_tests_cant": "greedy cover over arbitrary overlapping sets", "anchors": ["crates/core/src/transcript/proof.rs: TranscriptProofBuilder::build"]}
{"id": "C15", "title": "Commitment configuration is always in bounds", "statement": "Every configuration produced by TranscriptCommitConfigBuilder contains only index sets inside the transcript, contains exactly the commitments of the successful calls, and its request carries the same triples; a failing call adds nothing.", "quantifier": "every transcript and every history of builder calls", "why_tests_cant": "unbounded histories", "anchors": ["crates/core/src/transcript/commit.rs: TranscriptCommitConfigBuilder, TranscriptCommitConfig::to_request"]}
{"id": "C16", "title": "Prove configuration reveals exactly what was asked", "statement": "Every ProveConfig built from a transcript reveals, per direction, exactly the union of the ranges passed in successful reveal calls, always inside the transcript; reveal_sent_all / reveal_recv_all reveal everything.", "quantifier": "every transcript and history of builder calls", "why_tests_cant": "unbounded histories", "anchors": ["crates/core/src/config/prove.rs: ProveConfigBuilder"]}
{"id": "C17", "title": "MPC-TLS configuration validity", "statement": "Every MpcTlsConfig obtained by building or by deserialization satisfies max_recv_data_online <= max_recv_data; the derived protocol configuration keeps online limits within total limits and always reserves room for the protocol's own records.", "quantifier": "every field combination", "why_tests_cant": "exhaustive over all sizes", "anchors": ["crates/core/src/config/tls_commit/mpc.rs", "crates/mpc-tls/src/config.rs"]}
{"id": "C18", "title": "Merkle proofs for honest trees verify", "statement": "For every list of leaves and every strictly increasing list of in-range indices, the proof produced by the tree verifies against the tree's root for exactly those leaves.", "quantifier": "every leaf count (including non-powers of two) and every index set", "why_tests_cant": "tree shapes are unbounded", "anchors": ["crates/core/src/merkle.rs: MerkleTree::{insert,proof,root}, MerkleProof::verify"]}
{"id": "C19", "title": "Merkle proofs are binding for a known leaf count", "statement": "If MerkleProof::verify accepts leaves against the root of an honest tree and the proof's leaf count is the tree's, then every presented leaf equals the tree's leaf at that index, or an explicit collision of the hash function exists; duplicate indices are always rejected.", "quantifier": "every honest tree and every adversarial proof", "why_tests_cant": "quantifies over adversaries", "anchors": ["crates/core/src/merkle.rs: MerkleProof::verify"]}
{"id": "C20", "title": "Attestation proofs can be forged by choosing leaf contents", "statement": "The Merkle tree does not separate leaves from inner nodes and the leaf count is not signed: for every 32-byte hash, a prover who gets an honest notary to sign a body containing one field whose encoding it controls (e.g. a 46-byte server certificate commitment) can present an attestation proof, accepted under the notary's signature, whose body fields were never signed. (Disagreement with the documented guarantee.) The positive part: if no signed field encoding can be parsed as an inner node and no collision is found, every presented field was signed.", "quantifier": "every hash function with 32-byte output; every honest body (positive part)", "why_tests_cant": "an attack needs an existence proof for all hash functions, the positive part ranges over all adversarial proofs", "anchors": ["crates/attestation/src/lib.rs: Body::{root,hash_fields}", "crates/attestation/src/proof.rs: BodyProof::verify_with_provider", "crates/attestation/src/builder.rs: accept_request", "crates/core/src/hash.rs: Hash Deserialize"]}
{"id": "C21", "title": "Attestation proof completeness", "statement": "For every attestation body built by a notary, the proof built from the attestation with the verifying provider verifies and returns the same attestation fields.", "quantifier": "every body, extension list and commitment list", "why_tests_cant": "round trip over unbounded field lists", "anchors": ["crates/attestation/src/proof.rs: AttestationProof::{new,verify}, BodyProof::new"]}
{"id": "C22", "title": "Attestation acceptance requires the signature", "statement": "AttestationProof::verify succeeds only if the provider knows a verifier for the signature algorithm, the body proof verifies against the root in the header, and the signature is valid for the serialized header under the body's verifying key; a failure at any step yields an error; the outcome depends on nothing else.", "quantifier": "every proof and provider", "why_tests_cant": "decision table over all inputs", "anchors": ["crates/attestation/src/proof.rs: AttestationProof::verify"]}
{"id": "C23", "title": "Presentation verification binds the parts together", "statement": "A presentation that verifies returns a server name only if the identity proof opened the attested certificate commitment and the handshake verified for the attested time and ephemeral key, and returns a transcript only if the transcript proof verified against the attested connection length and commitments; absent parts are absent in the output.", "quantifier": "every presentation and provider", "why_tests_cant": "decision logic over all combinations", "anchors": ["crates/attestation/src/presentation.rs: Presentation::verify", "crates/attestation/src/connection.rs: ServerIdentityProof::verify_with_provider"]}
{"id": "C24", "title": "Server handshake data verification", "statement": "HandshakeData verification succeeds only when the ephemeral key matches the binding, the certificate chain is non-empty and verifies for the server name at the given time, and the key-exchange parameters are signed (client random | server random | params) by the end-entity certificate; the check fails otherwise.", "quantifier": "every handshake, time, key and name", "why_tests_cant": "all combinations of failing checks", "anchors": ["crates/core/src/connection.rs: HandshakeData::verify, ServerEphemKey::kx_params"]}
{"id": "C25", "title": "Notary request/attestation consistency", "statement": "Request::validate(attestation) succeeds exactly when signature algorithm, hash algorithm, certificate commitment and extensions agree as documented; it does not check that the body hashes to the signed header root (an attestation with a header over another body passes).", "quantifier": "every request and attestation", "why_tests_cant": "exact characterization", "anchors": ["crates/attestation/src/request.rs: Request::validate"]}
{"id": "C26", "title": "Hash values and typed encodings", "statement": "Hash deserialization accepts exactly byte strings of at most 64 bytes and round-trips; two hashes are equal exactly when their byte strings are equal; encodings of hashes are injective.", "quantifier": "every byte string", "why_tests_cant": "all lengths and contents", "anchors": ["crates/core/src/hash.rs: Hash"]}
{"id": "C27", "title": "Record sequence numbers and nonces are never reused", "statement": "Across any interleaving of push_encrypt, push_decrypt, flush, pops, start_traffic and commit on a record layer, with whatever failures, no pair of explicit nonce and block counter is used twice for encryption, the explicit nonces of encrypted records are pairwise distinct and equal to the big-endian sequence number, and the sequence numbers of the records in the transcript strictly increase; they are 0, 1, 2, ... if no call failed in a way that uses up or loses a record.", "quantifier": "every history of record layer operations shorter than 2^64 records", "why_tests_cant": "nonce reuse is a property of all histories", "anchors": ["crates/mpc-tls/src/record_layer.rs: push_encrypt, push_decrypt, next_write, next_read"]}
{"id": "C28", "title": "Traffic limits are enforced", "statement": "No history of operations makes the record layer accept more than the allocated number of sent or received bytes, nor decrypt more than the allocated online bytes while decrypting is enabled.", "quantifier": "every configuration and history", "why_tests_cant": "arithmetical invariant over unbounded histories", "anchors": ["crates/mpc-tls/src/record_layer.rs: push_encrypt, push_decrypt, flush"]}
{"id": "C29", "title": "Records keep their order and none is lost", "statement": "Records returned by next_encrypted / next_decrypted and by commit are pushed records, encrypted or decrypted under their own sequence number, in the order pushed, without duplication, in every history of pushes, flushes (with decryption on or off), pops and commit, with whatever failures. If no flush or commit fails and no push is rejected for its plaintext, none is lost. Application data is not released before start_traffic.", "quantifier": "every history", "why_tests_cant": "scheduling-dependent reordering cannot be enumerated", "anchors": ["crates/mpc-tls/src/record_layer.rs: flush, next_encrypted, next_decrypted, commit"]}
{"id": "C30", "title": "MPC GHASH equals GHASH", "statement": "For all key shares, the xor of the two parties' tag shares equals the GHASH of the padded input under the combined key, for every input up to the maximal number of blocks; longer inputs are rejected.", "quantifier": "every field of characteristic two, all shares, all block lists up to the limit", "why_tests_cant": "algebraic identity over all shares", "anchors": ["crates/mpc-tls/src/record_layer/aead/ghash.rs: MpcGhash::{setup,compute}, compute_shares"]}
{"id": "C31", "title": "GHASH input encoding is injective", "statement": "build_ghash_data maps different (aad, ciphertext) pairs to different byte strings (for lengths below 2^61), and its length is a multiple of 16; make_tls12_aad is injective in (sequence number, type, version, length) for lengths below 2^16 and is not injective beyond.", "quantifier": "all byte strings", "why_tests_cant": "injectivity over unbounded inputs", "anchors": ["crates/mpc-tls/src/record_layer/aead/ghash.rs: build_ghash_data", "crates/tls-core/src/cipher.rs: make_tls12_aad"]}
{"id": "C32", "title": "Authenticated plaintext really decrypts the recorded ciphertext", "statement": "When the verifier accepts a plaintext proof, every revealed byte xor the AES-CTR keystream byte at its position equals the recorded ciphertext byte of the right record, counter and offset, for every record layout and every set of revealed and committed ranges.", "quantifier": "every record list, range sets and plaintext", "why_tests_cant": "position arithmetic over arbitrary record boundaries", "anchors": ["crates/tlsn/src/transcript_internal/auth.rs: verify_plaintext, alloc_keystream, PlaintextProof::verify"]}
{"id": "C33", "title": "Verifier output is exactly what was requested and proven", "statement": "Verifier::verify outputs a transcript only if reveal was requested; its lengths equal the application data lengths of the TLS session and its authenticated sets equal the requested sets; a server name is output only if the handshake data verified; otherwise it returns an error.", "quantifier": "every prove request and session", "why_tests_cant": "decision logic over all adversarial requests", "anchors": ["crates/tlsn/src/verifier/verify.rs: verify"]}
{"id": "C34", "title": "A malicious commit request can crash the verifier", "statement": "Commit ranges in a prove request are not bounds-checked: when the full plaintext of a direction is revealed, a commit range beyond the transcript makes the verifier panic by slice indexing instead of returning an error. (Disagreement: a verifier should reject.)", "quantifier": "existence, plus for all in-bounds requests no panic", "why_tests_cant": "needs a specific adversarial request", "anchors": ["crates/tlsn/src/verifier/verify.rs", "crates/tlsn/src/transcript_internal/auth.rs: verify_plaintext"]}
{"id": "C35", "title": "Tag verification", "statement": "TagProof::verify succeeds only if every received record carries a tag and that tag equals GHASH(aad, ciphertext) xor the encrypted J0 block for the record's own sequence number, type, version and length.", "quantifier": "every record list", "why_tests_cant": "all lists and all positions", "anchors": ["crates/tlsn/src/tag.rs: verify_tags, TagProof::verify", "crates/tlsn/src/ghash.rs"]}
{"id": "C36", "title": "TLS integers and vectors round-trip", "statement": "For every Codec type modelled, decode(encode(x) ++ rest) returns x and leaves rest; decoding consumes a prefix only; length-prefixed vectors round-trip when their encoding fits the prefix.", "quantifier": "all values and trailing data", "why_tests_cant": "unbounded payloads", "anchors": ["crates/tls-core/src/msgs/codec.rs", "crates/tls-core/src/msgs/base.rs"]}
{"id": "C37", "title": "Deframing does not depend on how bytes arrive", "statement": "Feeding a byte stream to MessageDeframer in any chunking yields the same sequence of frames, the same desync verdict and the same pending bytes as parsing the whole stream; the fixed-size buffer never fills up with an incomplete record, so reads always make progress.", "quantifier": "every byte stream and every chunking", "why_tests_cant": "chunk boundaries are arbitrary schedules", "anchors": ["crates/tls-core/src/msgs/deframer.rs: MessageDeframer::read, try_deframe_one"]}
{"id": "C38", "title": "Fragmenting preserves the message", "statement": "MessageFragmenter splits a message into fragments whose payloads concatenate to the original, each at most the maximum and of the same type and version; encoding the fragments and deframing them returns the fragments.", "quantifier": "every message and legal fragment size", "why_tests_cant": "all payload lengths", "anchors": ["crates/tls-core/src/msgs/fragmenter.rs: MessageFragmenter::fragment"]}
{"id": "C39", "title": "Handshake joining does not depend on fragmentation", "statement": "HandshakeJoiner yields the same handshake messages for every way of splitting the handshake byte stream over records, reports none larger than 64KiB, and keeps the unconsumed tail.", "quantifier": "every byte stream and every split", "why_tests_cant": "arbitrary splits", "anchors": ["crates/tls-core/src/msgs/hsjoiner.rs: HandshakeJoiner::take_message"]}
{"id": "C40", "title": "Byte buffers are FIFO and respect their limit", "statement": "For every history of appends, limited appends, pops, reads and partial writes, the bytes read out of ChunkVecBuffer are exactly the bytes appended, in order, and limited appends never push the content above the limit.", "quantifier": "every history and every short read/write", "why_tests_cant": "unbounded histories with partial I/O", "anchors": ["crates/mpc-tls/src/client/vecbuf.rs: ChunkVecBuffer"]}
{"id": "C41", "title": "Handshake transcript hashes cover the right bytes in the right order", "statement": "The session hash, client-finished hash and server-finished hash computed when building a TlsTranscript are SHA-256 over the chronological handshake message stream prescribed by TLS 1.2, for every split of handshake messages over records.", "quantifier": "every pair of handshake streams", "why_tests_cant": "all message boundaries", "anchors": ["crates/core/src/transcript/tls/builder.rs: compute_handshake_hashes", "crates/core/src/transcript/tls.rs: sf_hash"]}
{"id": "C42", "title": "Parsed TLS records are sequential and complete", "statement": "TlsTranscriptBuilder::build only accepts record lists starting with the Finished record and strictly increasing sequence numbers; to_transcript returns the concatenation of the application data plaintexts or an error when one is missing.", "quantifier": "every record list", "why_tests_cant": "all lists", "anchors": ["crates/core/src/transcript/tls/builder.rs", "crates/core/src/transcript/tls.rs: to_transcript"]}
{"id": "C43", "title": "Follower message handling", "statement": "For every message sequence a leader may send, the follower sets client random, server hello and finished values at most once, accepts only handshakes within five seconds of its clock and secp256r1 keys, and its resulting transcript carries exactly those values. A leader that sends the server hello before the client random makes the follower panic instead of failing. (Disagreement.)", "quantifier": "every message sequence", "why_tests_cant": "adversarial schedules", "anchors": ["crates/mpc-tls/src/follower.rs: MpcTlsFollower::run", "crates/components/hmac-sha256/src/prf.rs: set_server_random"]}
{"id": "C44", "title": "Both PRF modes compute the TLS 1.2 PRF", "statement": "In Normal and Reduced network mode, for every secret, label, seed and output length, the PRF outputs equal P_SHA256 of RFC 5246; the session keys are disjoint consecutive slices of the key block in the TLS order.", "quantifier": "all secrets, seeds, lengths and flush schedules", "why_tests_cant": "equality of two protocols over all inputs and schedules", "anchors": ["crates/components/hmac-sha256/src/prf.rs", "crates/components/hmac-sha256/src/prf/function/normal.rs", "crates/components/hmac-sha256/src/prf/function/reduced.rs", "crates/tls-core/src/prf.rs"]}
{"id": "C45", "title": "Key-exchange shares add up to the shared point's x coordinate", "statement": "For all leader and follower key shares with distinct x coordinates, the parties' outputs of the point addition protocol add up to the x coordinate of the sum of the two points on P-256, given correct share conversion; with equal x coordinates one party panics. The circuit outputs both sums and its check is zero exactly when they agree. For all private keys, a whole run gives the client key as the sum of the public keys and both parties the pre-master secret that the server computes from it. In every history of calls of one party, a successful finalize means that both computations of the pre-master secret agree, and steps succeed only in the order of the protocol.", "quantifier": "every pair of keys and points, all share randomness, every history of calls", "why_tests_cant": "algebraic identity over a 256-bit field", "anchors": ["crates/components/key-exchange/src/point_addition.rs: derive_x_coord_share", "crates/components/key-exchange/src/circuit.rs: build_pms_circuit", "crates/components/key-exchange/src/exchange.rs: MpcKeyExchange"]}
{"id": "C46", "title": "Keystream material is used once", "statement": "For every sequence of consume calls, the keystream blocks handed out are pairwise disjoint, come from the allocated blocks, and consume fails exactly when not enough blocks are left.", "quantifier": "every allocation and history", "why_tests_cant": "reuse is a property of histories", "anchors": ["crates/components/cipher/src/lib.rs: Keystream::consume"]}
{"id": "C47", "title": "Address translation between the MPC and ZK memories", "statement": "MemoryMap::try_get maps a slice that lies in one allocation to the slice at the same offset of the matching allocation, fails for slices that cross allocations, and distinct addresses never alias.", "quantifier": "every insertion history and slice", "why_tests_cant": "all layouts", "anchors": ["crates/components/deap/src/map.rs: MemoryMap"]}
{"id": "C48", "title": "Range maps resolve positions to the right memory", "statement": "RangeMap::get and index return exactly the item slice holding the requested positions and fail if a range crosses items or is absent.", "quantifier": "every map and range", "why_tests_cant": "all layouts", "anchors": ["crates/tlsn/src/map.rs: RangeMap"]}
{"id": "C49", "title": "Close-notify rule", "statement": "verify_transcript accepts a session only if the finished verify data equal the expected ones and each direction ends with application data, nothing, or a visible close-notify alert.", "quantifier": "every transcript", "why_tests_cant": "all record lists", "anchors": ["crates/mpc-tls/src/utils.rs: verify_transcript, check_close_notify"]}
{"id": "C50", "title": "Handlers map to the right ranges and actions", "statement": "compute_reveal puts the ranges of every REVEAL handler, and only those, into the reveal list of the handler's direction and the ranges of every HASH handler into the commit list with its algorithm; every annotated range comes from its handler; all ranges lie inside the message when the parser's spans do.", "quantifier": "every handler list and parsed message", "why_tests_cant": "arbitrary handler combinations", "anchors": ["crates/sdk-core/src/handler/mod.rs: compute_reveal", "crates/sdk-core/src/handler/extract.rs"]}
{"id": "C51", "title": "Hiding a JSON value can reveal it", "statement": "With hideValue set, the ranges extracted for an object member exclude the value; but for an array element the same option returns exactly the value's bytes, and for the path \"\" or a path beginning with a dot the option reveals too. (Disagreement with the option's meaning.)", "quantifier": "every JSON document and path; existence for the failing case", "why_tests_cant": "depends on document shape", "anchors": ["crates/sdk-core/src/handler/extract.rs: extract_json_body"]}
{"id": "C52", "title": "Connection lengths are truncated to 32 bits", "statement": "Transcript::length reports the real lengths exactly when both are below 2^32; beyond that it silently wraps.", "quantifier": "all lengths", "why_tests_cant": "sizes beyond test reach", "anchors": ["crates/core/src/transcript.rs: Transcript::length"]}
{"id": "C53", "title": "Canonical serialization is injective and domain separated", "statement": "Two body fields (of the same or of different types) with different contents never produce the same bytes to hash; two different headers never produce the same bytes to sign; two different certificate openings never produce the same bytes to commit to, and these are never the bytes of a body field.", "quantifier": "every pair of field contents, headers and openings that fit their Rust types", "why_tests_cant": "injectivity is a statement about all pairs of values", "anchors": ["crates/attestation/src/serialize.rs: CanonicalSerialize, impl_domain_separator", "crates/attestation/src/hash.rs: hash_separated", "crates/attestation/src/lib.rs: Header, Body"]}
{"id": "C54", "title": "Attestation builder contents", "statement": "Whatever the history of setter calls after accepting a request, an attestation that is built contains exactly the signer's key, the last connection info and server key that were set, the request's certificate commitment, the request's extensions followed by those added, and the last list of transcript commitments; its header commits to exactly this body and is what is signed. It is built exactly if the request's algorithms are supported and implemented, the extension validator accepts, both mandatory fields were set and signing succeeds. The default configuration refuses every request with an extension.", "quantifier": "every configuration, request and sequence of setter calls", "why_tests_cant": "ranges over all call histories", "anchors": ["crates/attestation/src/builder.rs: accept_request, build", "crates/attestation/src/config.rs: AttestationConfigBuilder"]}
{"id": "C55", "title": "Partial transcript queries", "statement": "A partial transcript reports itself complete exactly if every byte of both directions is authenticated, contains says exactly whether all positions are in bounds, and iteration yields the authenticated bytes in order of position without panicking.", "quantifier": "every well-formed partial transcript, direction and index set", "why_tests_cant": "ranges over all transcripts and sets of authenticated ranges", "anchors": ["crates/core/src/transcript.rs: PartialTranscript::is_complete, contains, iter"]}
{"id": "C56", "title": "Attestation request contents", "statement": "An attestation request is built exactly if its hash algorithm is available and server name, handshake data and transcript were provided; it carries the configured algorithms and extensions and a commitment to exactly the given handshake data, and the secrets returned are the given ones.", "quantifier": "every builder state, crypto provider and blinder", "why_tests_cant": "ranges over all builder inputs", "anchors": ["crates/attestation/src/request/builder.rs: RequestBuilder::build"]}
{"id": "C57", "title": "The leader delivers only authenticated application data", "statement": "Every application data record that the leader's record layer delivers, in any history of calls, comes from a record it was given whose AES-GCM tag is right under the server's key for the record's position, type, version and length, and the delivered plaintext is the decryption of that record.", "quantifier": "every history of record layer calls, keys and records", "why_tests_cant": "an unauthenticated path may exist in any interleaving of flushes, pops and commit", "anchors": ["crates/mpc-tls/src/record_layer.rs: flush, commit, next_decrypted", "crates/mpc-tls/src/record_layer/decrypt.rs: decrypt_local, verify_tags", "crates/mpc-tls/src/record_layer/aes_gcm.rs: decrypt"]}
{"id": "C58", "title": "A session within its limits does not fail", "statement": "If the records are not empty, not longer than a TLS fragment, authentic, and together fit into the material allocated for them, counted in whole blocks, and no more than the buffer size are pushed between flushes, then no call on the record layer fails when the peer is honest and the locks are free.", "quantifier": "every such history and every key", "why_tests_cant": "resource accounting over unboundedly many records", "anchors": ["crates/mpc-tls/src/record_layer.rs: push_encrypt, push_decrypt, flush", "crates/mpc-tls/src/record_layer/aead/aes_gcm.rs: apply_keystream, take_keystream, compute_tags, verify_tags"]}
{"id": "C59", "title": "Leader and follower commit to the same records", "statement": "If the follower's record layer is driven with the leader's records, without the plaintext of application data, then the transcripts both commit to agree in sequence numbers, types, nonces and ciphertexts; the follower knows the plaintext of all records except application data, where the leader's plaintext is right.", "quantifier": "every pair of corresponding histories", "why_tests_cant": "agreement over all interleavings of flushes and pops on both sides", "anchors": ["crates/mpc-tls/src/record_layer.rs: flush, commit", "crates/mpc-tls/src/follower.rs: run"]}
{"id": "C60", "title": "Application data cannot be passed off as another record type", "statement": "Every received record that carries the application data type on the wire is treated by the follower as application data: its plaintext stays hidden and it belongs to the application data transcript; records of all other types are public to both parties.", "quantifier": "every sequence of messages from the leader", "why_tests_cant": "must hold for every encoding of a content type a peer can send", "anchors": ["crates/mpc-tls/src/record_layer.rs: push_decrypt", "crates/mpc-tls/src/msg.rs: Decrypt", "crates/tls-core/src/msgs/macros.rs: enum_builder"]}
{"id": "C61", "title": "The prover discloses nothing outside of the revealed ranges", "statement": "What a prover gives to the verifier while proving a direction (values it makes public and values it decodes) depends only on the session keys' ciphertext and on the revealed bytes: two provers whose plaintexts agree on the revealed ranges and decrypt the same ciphertext make the same public.", "quantifier": "every plaintext, reveal set, commit set and record layout", "why_tests_cant": "a hyperproperty over pairs of runs", "anchors": ["crates/tlsn/src/transcript_internal/auth.rs: prove_plaintext"]}
{"id": "C62", "title": "Prover and verifier run the same circuit", "statement": "For the same session, reveal and commit sets the prover and the verifier issue the same sequence of VM operations (allocations, circuits, decodings) with complementary visibility, so they never get out of step.", "quantifier": "every session, reveal set, commit set and hash algorithm", "why_tests_cant": "all layouts", "anchors": ["crates/tlsn/src/transcript_internal/auth.rs: prove_plaintext, verify_plaintext", "crates/tlsn/src/transcript_internal/commit/hash.rs: hash_commit_inner"]}
{"id": "C63", "title": "An honest prover is accepted", "statement": "For every proving configuration built for the session's transcript, the honest prover's message and private inputs are accepted by the verifier, which outputs the revealed transcript, the server name if it was sent, and the same commitments as the prover; the prover's secrets open them.", "quantifier": "every session, configuration and choice of blinders", "why_tests_cant": "completeness over all configurations", "anchors": ["crates/tlsn/src/prover/prove.rs: prove", "crates/tlsn/src/verifier/verify.rs: verify"]}
{"id": "C64", "title": "A claimed server identity may be missing", "statement": "The request's flag server_identity is not compared with the handshake data that were sent: a verifier that relies on the flag may accept a session and get an output without a server name. (Disagreement.)", "quantifier": "existence; and for all requests the flag has no influence", "why_tests_cant": "needs an adversarial prover", "anchors": ["crates/tlsn/src/verifier/verify.rs: verify", "crates/core/src/config/prove.rs: ProveRequest"]}
{"id": "C65", "title": "Handshake messages are parsed exactly", "statement": "For every content type, version and payload, parsing a record payload (alert, change cipher spec, handshake message of any of the twenty known types with all their extensions, or application data) succeeds with a message exactly when that message fits its length fields and its encoding is the payload. Hence an accepted payload re-encodes to the same bytes, no two messages share an encoding, every representable message is parsed back to itself, and hellos have the byte layout of RFC 5246. A hello without an extensions block is rejected.", "quantifier": "all payload bytes, all messages (any numbers, sizes and nesting of extensions and certificates), all positions in a stream", "why_tests_cant": "The space of messages is infinite and nested; canonicity (accepted bytes re-encode to themselves) is a statement about every accepted byte string, not about encodings of sample messages.", "anchors": ["crates/tls-core/src/msgs/handshake.rs: HandshakeMessagePayload::read_version, ClientExtension, ServerExtension, ClientHelloPayload, ServerHelloPayload", "crates/tls-core/src/msgs/message.rs: MessagePayload::new, MessagePayload::encode"]}
{"id": "C66", "title": "The handshake hash covers the bytes on the wire", "statement": "The client computes its handshake hash over re-encodings of parsed messages. For every cutting of the handshake stream into records, the hash after any number of complete messages equals the hash over exactly the received bytes of those messages, in order, whether they were buffered before the hash function was known or not; for sent messages it covers exactly the payloads of the records written.", "quantifier": "all handshake streams, all fragmentations and record versions, all fragment sizes, all interleavings with other messages", "why_tests_cant": "A single non-canonical but accepted encoding would make the two sides' Finished messages disagree; excluding it requires reasoning about all accepted inputs and all fragmentations.", "anchors": ["crates/mpc-tls/src/client/hash_hs.rs: HandshakeHashBuffer, HandshakeHash", "crates/tls-core/src/msgs/hsjoiner.rs: HandshakeJoiner::take_message", "crates/tls-core/src/msgs/fragmenter.rs: MessageFragmenter::fragment"]}
{"id": "C67", "title": "The handshake data of a transcript is what was on the wire", "statement": "When a TLS transcript is built from the raw byte streams of a connection, its TLS version, client random, server random, server certificate chain, server ephemeral key, signature and signature algorithm are exactly those in the client hello, the first server hello, the first certificate message and the first server key exchange on the wire, unless the caller set them explicitly; the streams determine them uniquely. If the handshake data then verifies, the signature was checked over the randoms and the key exchange parameters as they appear on the wire.", "quantifier": "all byte streams in both directions, all cuttings into records, all sets of explicitly given fields", "why_tests_cant": "Extraction goes through record parsing, reassembly and parsing of nested messages; that no stream yields fields other than those on the wire is a statement about every stream, including malformed and adversarial ones.", "anchors": ["crates/core/src/transcript/tls/builder.rs: TlsTranscriptBuilder::build, extract_handshake, extract_server_key_exchange, map_signature_scheme", "crates/core/src/connection.rs: HandshakeData::verify"]}
{"id": "C68", "title": "The session keys are those the server derives", "statement": "When the secret of the PRF is the output of the key exchange, every session key and IV that is decoded after any history of calls is the slice of the key block that the server derives with RFC 5246 from its own private key and the client key it was sent; once the randoms are set, flushing the PRF makes them available.", "quantifier": "every pair of private keys of the parties, every server key, all share randomness, every history of PRF calls", "why_tests_cant": "all keys and schedules", "anchors": ["crates/components/key-exchange/src/exchange.rs: MpcKeyExchange", "crates/components/hmac-sha256/src/prf.rs: Prf"]}
{"id": "C69", "title": "The prover's TLS transcript is what the connection contained", "statement": "If the prover's side of the MPC-TLS connection finishes with a transcript and none of its calls failed, the handshake steps were made once each and in order before the connection was closed; the transcript has the time, randoms, server key, certificates and signature of that handshake, its records are exactly what was pushed for sending and receiving, in order, encrypted or decrypted under the RFC 5246 keys, the first record of each direction is the right Finished message, and both directions end properly. The transcript is handed out at most once.", "quantifier": "all sequences of calls on the prover's connection, with all results of the clock, I/O and MPC; all private keys, randoms, shares and record contents", "why_tests_cant": "tests drive one client in its usual order; the claim ranges over all orders of calls, flush points, late decryption and failures in between", "anchors": ["crates/mpc-tls/src/leader.rs: MpcTlsLeader::{alloc,preprocess,prepare_encryption,get_client_finished_vd,get_server_finished_vd,push_incoming,push_outgoing,flush,close_connection,finish}", "crates/mpc-tls/src/utils.rs"]}
{"id": "C70", "title": "Prover and verifier end with the same records", "statement": "If the prover finishes with a transcript and the verifier, having received the prover's messages in order, returns one too, both transcripts have the same time, version, randoms and server key and, record by record in both directions, the same type, sequence number, nonce and ciphertext; the verifier's plaintext is the prover's except that it has none for application data.", "quantifier": "all call sequences of the prover and all interleavings of its flushes, all shares and payloads; all pairs of successful runs", "why_tests_cant": "the two parties run different code with different buffering; agreement must hold for every schedule of pushes, flushes and deferred decryption", "anchors": ["crates/mpc-tls/src/leader.rs: MpcTlsLeader", "crates/mpc-tls/src/follower.rs: MpcTlsFollower::run", "crates/mpc-tls/src/msg.rs: Message", "crates/mpc-tls/src/record_layer.rs: RecordLayer"]}
{"id": "C71", "title": "The messages to the verifier do not depend on the request", "statement": "The messages which the prover's MPC-TLS side sends to the verifier depend on outgoing application data only through its length: two histories of calls that differ only in the contents of outgoing application data, length by length equal, send the same messages, also if calls fail.", "quantifier": "all pairs of call sequences on the prover that differ only in same-length contents of outgoing application data; all outcomes of I/O, MPC and clock", "why_tests_cant": "a non-interference property over pairs of runs; a test compares finitely many pairs", "anchors": ["crates/mpc-tls/src/leader.rs: MpcTlsLeader::{push_outgoing,flush}", "crates/mpc-tls/src/msg.rs: Message, Encrypt"]}
{"id": "C72", "title": "DEAP: accepted outputs are those of the committed inputs", "statement": "When the follower's finalize of the dual-execution VM succeeds, every output it decoded and holds from the (possibly malicious) MPC VM equals the output of the circuits it asked for on the inputs committed in the ZK VM, among which are the values the follower assigned itself; until finalize, the follower's private inputs are not committed (made public) in the ZK VM unless the caller does so there directly, and after a successful finalize they are all committed.", "quantifier": "every MPC VM behaviour, every sequence of allocations, markings, assignments, commits, calls, decodings and executions, successful or not, interleaved with any direct use of the ZK VM, and every choice of the leader's inputs", "why_tests_cant": "Soundness quantifies over a malicious MPC VM and all call histories; unit tests run one honest circuit and one tampered input.", "anchors": ["crates/components/deap/src/lib.rs: Deap::finalize, alloc_raw, assign_raw, commit_raw, decode_raw, mark_public_raw, mark_private_raw, mark_blind_raw, call_raw", "crates/components/deap/src/map.rs: MemoryMap"]}
{"id": "C73", "title": "The SDK's openings open what was asked", "statement": "The openings reveal returns are, direction by direction, one per distinct requested commitment; each gives the data of its ranges, the blinder and the algorithm under which the verifier's commitment for that direction and range opens; but openings do not follow the order of the request and a commitment asked for twice is returned once.", "quantifier": "every commit request, transcript and honest prover output", "why_tests_cant": "arbitrary request lists, hash-map orders and duplicates", "anchors": ["crates/sdk-core/src/prover.rs: build_reveal_output, reveal"]}
{"id": "C74", "title": "Format committers commit exactly the documented parts", "statement": "The default HTTP committer commits exactly the whole message, the message without its data, the request line parts, each header with and without value, and the body with (for JSON) each member and value, and nothing else; any member or value can then be revealed alone or withheld; array elements are not committed separately.", "quantifier": "every parsed HTTP transcript", "why_tests_cant": "recursive documents of any depth and shape", "anchors": ["crates/formats/src/http/commit.rs: HttpCommit, DefaultHttpCommitter", "crates/formats/src/json/commit.rs: JsonCommit, DefaultJsonCommitter"]}
{"id": "C75", "title": "The SDK verifier's limits", "statement": "The SDK verifier accepts an MPC proposal exactly when its data sizes do not exceed the configured ones and every record count it states does not exceed a configured one; the protocol then run is bounded accordingly, except that a record limit does not bind a prover that states none and an absent limit refuses all who state one; the reported lengths are those of the application data below 4 GiB.", "quantifier": "every limit, proposal and call sequence", "why_tests_cant": "all combinations of optional limits and all sizes", "anchors": ["crates/sdk-core/src/verifier.rs: SdkVerifier::setup, verify", "crates/sdk-core/src/config.rs: VerifierConfig", "crates/tlsn/src/deps.rs: build_mpc_tls_config"]}
{"id": "C76", "title": "SDK calls succeed only in order, and failures are final", "statement": "Every call on an SDK prover or verifier succeeds only if the calls before it were exactly the ones its step requires and they succeeded, in the configured mode; a failed, refused or abandoned call ends the session; reveal happens at most once; in their order the calls succeed when the protocol does, except that a receive limit below 32 with no online limit can never be set up although it is accepted.", "quantifier": "every sequence of calls, every protocol outcome and abandoned call", "why_tests_cant": "all call histories including cancelled futures", "anchors": ["crates/sdk-core/src/prover.rs: SdkProver", "crates/sdk-core/src/verifier.rs: SdkVerifier"]}
{"id": "C77", "title": "No application data before the server is authenticated", "statement": "The TLS client makes received application data available, hands the caller's data over for encryption, and reports that it is no longer handshaking only after one whole handshake in which the server's parameters were among those offered, its certificate chain was verified for the requested name, its key exchange was signed by that certificate, and its finished message carried the verify data computed for it.", "quantifier": "every configuration, every sequence of calls, every byte sent by the network, every answer of the leader", "why_tests_cant": "ranges over all message sequences an active attacker can send and all call schedules", "anchors": ["crates/mpc-tls/src/client/conn.rs: ClientConnection::process_new_packets, CommonState", "crates/mpc-tls/src/client/tls12.rs: ExpectCertificate, ExpectServerKx, ExpectServerDone, ExpectFinished, ExpectTraffic", "crates/mpc-tls/src/client/hs.rs: emit_client_hello, ExpectServerHello"]}
{"id": "C78", "title": "The TLS client delivers and sends bytes unchanged, in order and without gaps", "statement": "What the caller reads is a prefix of the application data decrypted so far, and all of it when it reads on; nothing that arrives in unprotected records is read; the records processed are exactly those at the beginning of the bytes received; what is encrypted is a prefix of what the caller wrote, in records of at most the configured size, and all of it once processing succeeds; the bytes on the wire are exactly the client's plaintext messages and the encrypted records in order.", "quantifier": "every sequence of calls with every chunking of reads and writes, every network input, every leader answer", "why_tests_cant": "all interleavings of partial reads and writes", "anchors": ["crates/mpc-tls/src/client/conn.rs: read_tls, write_tls, read_plaintext, write_plaintext, flush_plaintext", "crates/mpc-tls/src/client/vecbuf.rs: ChunkVecBuffer"]}
{"id": "C79", "title": "Plaintext and encrypted epochs are not mixed", "statement": "No record is taken as plaintext after the server's change of cipher spec and none is decrypted before it; nothing is sent in the clear once the leader has the server's key and nothing is encrypted before.", "quantifier": "every sequence of calls, every network input, every leader answer", "why_tests_cant": "must hold at every point of every history, including after alerts and errors", "anchors": ["crates/mpc-tls/src/client/conn.rs: process_incoming_opaque, process_incoming_plain, send_msg, send_msg_encrypt", "crates/mpc-tls/src/client/tls12.rs: emit_ccs, ExpectCcs"]}
{"id": "C80", "title": "Errors of the TLS client are final", "statement": "Once processing has failed (error, dropped future or panic), every later call of process or start fails with the same error, does no work and leaves the connection unchanged.", "quantifier": "every configuration, every history, every continuation", "why_tests_cant": "all histories and all continuations", "anchors": ["crates/mpc-tls/src/client/conn.rs: ClientConnection::start, process_new_packets"]}
{"id": "C81", "title": "The TLS client asks the leader for each handshake secret at most once, about the right transcript", "statement": "Random, key share, client and server verify data are requested and the leader is prepared and started at most once each, even when a request has failed; the leader is told exactly what the server sent and signed, and the hashes are those of all handshake messages so far.", "quantifier": "every configuration, every sequence of calls, every network input, every leader answer", "why_tests_cant": "an active attacker may repeat or reorder messages at any point", "anchors": ["crates/mpc-tls/src/client/tls12.rs: ExpectServerDone, ExpectFinished", "crates/mpc-tls/src/client/hs.rs: emit_client_hello_for_retry", "crates/mpc-tls/src/leader.rs: MpcTlsLeader"]}
{"id": "C82", "title": "After the handshake the client keeps reading until the server closes", "statement": "A connection that is not handshaking wants to read unless data waits for the caller or a close alert was received.", "quantifier": "every configuration, every sequence of calls, every network input", "why_tests_cant": "every history, including alerts at any time", "anchors": ["crates/mpc-tls/src/client/conn.rs: wants_read, process_alert"]}
{"id": "C83", "title": "An honest handshake completes", "statement": "If the server chooses among what the client offered, its certificate chain and key exchange signature are accepted, it uses the leader's group and sends the verify data the leader computes, with or without a certificate status and a request for a client certificate, and the leader's calls succeed, then the client handles all its messages without error, answers, and becomes ready for application data.", "quantifier": "every configuration, every server choice meeting the conditions, every leader value", "why_tests_cant": "all combinations of extensions, suites, optional messages and client certificates", "anchors": ["crates/mpc-tls/src/client/hs.rs: ExpectServerHello::handle", "crates/mpc-tls/src/client/tls12.rs: ExpectCertificate, ExpectServerKx, ExpectServerDone, ExpectCcs, ExpectFinished"]}
{"id": "C84", "title": "The prover's connection carries the application's bytes faithfully", "statement": "At any time the application has read a prefix of the application data that was decrypted, and only after the server was authenticated; the data encrypted is a prefix of what the application wrote; the records processed come from a prefix of what the socket gave, and what the socket took is a prefix of the client's messages.", "quantifier": "every configuration, every schedule of polls, writes, reads and closes, every split of reads and writes, every behaviour of the socket, the server and the leader", "why_tests_cant": "every interleaving of partial reads and writes with the progress of the futures", "anchors": ["crates/tlsn/src/prover.rs: poll, io_to_tls_client, io_from_tls_client", "crates/tlsn/src/prover/client/mpc.rs: MpcTlsClient"]}
{"id": "C85", "title": "When the prover's future ends", "statement": "If the future returns the committed prover, the server had closed the connection, the session was authenticated, all complete records the socket gave were processed, the leader was closed and had nothing left, and all application data was handed to the application. The closing alert is sent at most once, only after the application closed its side and all its data was encrypted. After the future has returned, polling it is an error.", "quantifier": "every configuration, every schedule, every behaviour of the socket, the server and the leader; the socket gives no data after its end", "why_tests_cant": "every schedule, crash of a future and history", "anchors": ["crates/tlsn/src/prover/future.rs: ProverFuture", "crates/tlsn/src/prover.rs: poll, finish", "crates/tlsn/src/prover/client/mpc.rs: poll, client_close, server_close"]}
{"id": "C86", "title": "The prover gets to its end", "statement": "Every poll returns, and once the server has closed the connection the prover does not wait for ever.", "quantifier": "every configuration, every schedule, every server", "why_tests_cant": "a claim about all servers, all schedules and all depths of recursion", "anchors": ["crates/tlsn/src/prover/client/mpc.rs: poll", "crates/tlsn/src/prover.rs: io_to_tls_client, io_from_tls_client"]}
{"id": "C87", "title": "Decryption can be switched on and off", "statement": "The leader decrypts according to a choice the user made, and the user's last choice takes effect with the next poll in which the client is idle.", "quantifier": "every configuration, every schedule and every sequence of choices", "why_tests_cant": "every interleaving of choices, polls and closes", "anchors": ["crates/tlsn/src/prover/control.rs: ProverControl", "crates/tlsn/src/prover/client/mpc.rs: poll"]}
{"id": "C88", "title": "The proxy forwards and records faithfully", "statement": "In proxy mode the verifier hands each side exactly the bytes the other side sent, in order, records exactly these bytes, takes the time of the session when the first byte of the prover arrives, and closes a side only after everything has been handed over.", "quantifier": "every sequence of reads, writes, flushes, closes and errors on the two sockets", "why_tests_cant": "every interleaving of the two directions, every size of reads and partial writes", "anchors": ["crates/tlsn/src/verifier.rs: run (proxy)", "crates/tlsn/src/proxy.rs: InspectReader"]}
{"id": "C89", "title": "What the proxy verifier accepts", "statement": "In proxy mode the verifier accepts a connection exactly if the forwarded bytes parse as a TLS 1.2 connection whose two finished messages are encrypted under the keys, and hold the verify data, that the prover's committed master secret and the handshake on the wire give, and whose received records carry their AES-GCM tags.", "quantifier": "every master secret the prover may commit to, every byte sequence in both directions, every schedule", "why_tests_cant": "a dishonest prover chooses the secret and the bytes; all choices have to be covered", "anchors": ["crates/tlsn/src/proxy/verifier.rs: ProxyVerifier", "crates/tlsn/src/proxy.rs: alloc_proxy_refs, VerifyData checks", "crates/tlsn/src/verifier.rs: run (proxy)"]}
{"id": "C90", "title": "No panic of the proxy verifier", "statement": "In proxy mode, whatever the prover and the server send, the verifier accepts, returns an error, or waits; it does not panic.", "quantifier": "every sequence of events on the two sockets, every master secret", "why_tests_cant": "all byte sequences and all schedules", "anchors": ["crates/tlsn/src/verifier.rs: run (proxy)", "crates/tlsn/src/proxy/verifier.rs: finalize"]}
{"id": "C91", "title": "What a proxied session reveals", "statement": "If the proxy verifier accepts a connection and then a proof, the bytes it shows are the decryptions, at these positions and under the keys of that connection, of the records that went through its sockets; the server name is one whose certificate is bound to this connection and was valid at its time.", "quantifier": "every connection, every request, every claimed transcript and certificate", "why_tests_cant": "a dishonest prover chooses everything", "anchors": ["crates/tlsn/src/verifier.rs: run (proxy), verify", "crates/tlsn/src/verifier/verify.rs: verify"]}
{"id": "C92", "title": "Prover and verifier agree in proxy mode", "statement": "After a connection the proxy verifier accepts, a prover with the same bytes and the application data finishes without an error, with the same records, handshake data and keys.", "quantifier": "every accepted connection and every amount of application data that is sufficient", "why_tests_cant": "all connections", "anchors": ["crates/tlsn/src/proxy/prover.rs: ProxyProver", "crates/tlsn/src/proxy/verifier.rs: ProxyVerifier"]}
{"id": "C93", "title": "What the prover records in proxy mode", "statement": "In proxy mode the traffic from which the prover makes its transcript is exactly what went over the connection: all bytes that came from the server's socket, all bytes that went to it, the data the application wrote and the data the application gets.", "quantifier": "every TLS library, every order of events, every size of a read or write", "why_tests_cant": "all schedules", "anchors": ["crates/tlsn/src/prover.rs: connect (proxy), poll", "crates/tlsn/src/prover/client/proxy/mod.rs: ProxyTlsClient"]}
{"id": "C94", "title": "The proxy prover ends after the server", "statement": "In proxy mode, once the server has closed its side and everything it sent has been taken, the prover finishes or fails; it does not wait for ever.", "quantifier": "every state that a history reaches, every next poll", "why_tests_cant": "all schedules, liveness", "anchors": ["crates/tlsn/src/prover.rs: poll", "crates/tlsn/src/prover/client/proxy/mod.rs: poll"]}
{"id": "C95", "title": "Many statements in one session, against any prover", "statement": "A verifier may verify any number of statements in one session. Whatever the prover sends and whatever the user of the verifier accepts or rejects, each output answers the request the user was shown last and is true of the one recorded TLS session: revealed bytes are the session's, the server name was verified, hashes commit to the session's data. No two outputs contradict each other; a rejected request has no effect; a failed call is final.", "quantifier": "every session, every prover, every history of verify, accept and reject calls with any failures of the channel", "why_tests_cant": "all histories of calls and all messages", "anchors": ["crates/tlsn/src/verifier.rs: verify, accept, reject", "crates/tlsn/src/verifier/verify.rs: verify"]}
{"id": "C96", "title": "Many statements between honest parties", "statement": "Honest parties can prove any number of statements in one session. Each accepted statement gives the verifier exactly what the prover chose to reveal and both the same commitments; each rejected one gives the prover the reason and leaves both parties able to go on.", "quantifier": "every session, every list of statements inside of it, every decision of the verifier's user", "why_tests_cant": "all lengths of sequences of statements and decisions", "anchors": ["crates/tlsn/src/prover.rs: prove", "crates/tlsn/src/verifier.rs: verify, accept, reject", "crates/tlsn/src/msg.rs: ProveRequestMsg, Response"]}
{"id": "C97", "title": "Agreement on the protocol and its version", "statement": "A prover and a verifier begin the setup of a session only if they run the same version and the verifier's user accepted the configuration that the prover asked for; both then use that configuration. Otherwise the prover is given the reason.", "quantifier": "every pair of versions, every configuration of either mode, every decision", "why_tests_cant": "all versions, configurations and decisions", "anchors": ["crates/tlsn/src/prover.rs: commit", "crates/tlsn/src/verifier.rs: commit, accept, reject", "crates/tlsn/src/msg.rs: TlsCommitRequestMsg, Response"]}
{"id": "C98", "title": "Closing a split session", "statement": "A close asked for through the handle of a split session always reaches the connection: whenever it is called relative to a poll of the driver, the driver sees it in this poll or is woken for another. The connection is not closed without it, and the driver gives back the channel at most once.", "quantifier": "every interleaving of the driver's polls with any number of concurrent close calls, every behaviour of the connection", "why_tests_cant": "all interleavings of two or more threads", "anchors": ["crates/tlsn/src/session.rs: SessionDriver::poll, SessionHandle::close"]}
{"id": "C99", "title": "Taking back the channel of a session", "statement": "The channel under a session is given back only when the session is complete, and at most once; asking too early changes nothing.", "quantifier": "every history of calls", "why_tests_cant": "all histories of calls", "anchors": ["crates/tlsn/src/session.rs: Session::try_take, is_closed, close, poll"]}
{"id": "C100", "title": "A verified presentation tells the truth about a notarized session", "statement": "If a presentation verifies under the key of a notary that signs only attestations for the sessions it verified, then for one of these sessions the presentation shows its time, each authenticated byte is the byte the session carried at that position, the transcript has the session's length, and the server name is one that the certificates and the ephemeral key of the session attest to; or a hash collision is known.", "quantifier": "every presentation, every number of sessions, every behaviour of the provers in them, every request for an attestation", "why_tests_cant": "ranges over all cheating provers and all forged presentations", "anchors": ["crates/tlsn/src/verifier.rs: Verifier<Committed>::verify, accept", "crates/attestation/src/builder.rs", "crates/attestation/src/presentation.rs: Presentation::verify", "crates/examples/attestation/prove.rs: notary"]}
{"id": "C101", "title": "Honest parties get from the session to a verified presentation", "statement": "If the prover proves a statement about its session that holds, the verifier accepts it and attests to its output as notary, and the prover builds a presentation from the secrets it got, then this presentation verifies for everyone and shows the server's name and exactly the selected bytes.", "quantifier": "every session, statement, selection of committed data and choice of blinders", "why_tests_cant": "all sessions and statements", "anchors": ["crates/tlsn/src/prover.rs: prove", "crates/tlsn/src/verifier.rs: verify, accept", "crates/attestation/src/request/builder.rs", "crates/attestation/src/builder.rs", "crates/attestation/src/presentation.rs"]}
{"id": "C102", "title": "AES-GCM over the machine computes AES-GCM", "statement": "However the two-party AES-GCM is used, and whatever else is done with the machine, no call panics, and if the machine is executed then the result of applying the keystream is the input xor the AES counter mode keystream of key, implicit nonce and explicit nonce from counter 2 on, keystream that was taken is that keystream, the blocks of tags are the blocks with counter 1, and the GHASH key is the encryption of the zero block. The same holds of a keystream used by itself, with any first counter.", "quantifier": "every key, nonce, amount of resources, sequence of calls (also failing ones) and every AES circuit", "why_tests_cant": "all histories of calls and all lengths, paddings and inputs", "anchors": ["crates/components/cipher/src/aes/mod.rs: Aes128", "crates/components/cipher/src/lib.rs: Keystream::{consume, apply, to_vector, assign}", "crates/mpc-tls/src/record_layer/aead/aes_gcm.rs: MpcAesGcm"]}
{"id": "C103", "title": "AES-GCM succeeds while resources last, and both parties build the same circuit", "statement": "After AES-GCM was set up for a number of records and bytes, a call fails only if a nonce has the wrong length or what was set up is used up, exactly as the accounting of the record layer says, and every counter block gets at most the nonce and counter that this accounting records. If both parties make the same calls, they build the same graph of calls on the machine and get the same references.", "quantifier": "every amount of resources, every sequence of calls of both parties, with any other use of the machine that leaves AES-GCM's inputs alone", "why_tests_cant": "all histories; the parties run in different processes", "anchors": ["crates/mpc-tls/src/record_layer/aead/aes_gcm.rs: alloc, apply_keystream, take_keystream, compute_tags, verify_tags", "crates/components/cipher/src/lib.rs: Keystream", "crates/components/cipher/src/aes/mod.rs: Aes128"]}
{"id": "C104", "title": "The parties' shares of a secret add up to it", "statement": "Of the GHASH key and of the counter block of every tag both parties decode the same masked value, the leader's share is its own random pad, the follower's share is the secret with the leader's pad, and the two shares add up to the secret.", "quantifier": "every pair of pads, every history of calls of both parties", "why_tests_cant": "all pads, keys and histories", "anchors": ["crates/mpc-tls/src/decode.rs: OneTimePadShared", "crates/mpc-tls/src/record_layer/aead/aes_gcm.rs: alloc, compute_tags, verify_tags"]}
{"id": "C105", "title": "A cipher uses the key that was set", "statement": "After a key was set, the blocks that are allocated are computed under it.", "quantifier": "every sequence of set_key and allocations", "why_tests_cant": "all sequences; tests set one key", "anchors": ["crates/components/cipher/src/aes/mod.rs: set_key, alloc_block, alloc_ctr_block, alloc_keystream"]}
{"id": "C106", "title": "A signature the client accepted is recorded so that a verifier accepts it", "statement": "The client accepts a server's signature if and only if the key of its certificate made it over the message by the named scheme, offers exactly the schemes of which it accepts signatures, and records every accepted signature with an algorithm under which a verifier accepts it.", "quantifier": "every certificate, key type, message, scheme and signature", "why_tests_cant": "all keys, schemes and messages; tests use one RSA or P-256 certificate", "anchors": ["crates/tls-core/src/verify.rs: verify_signed_struct, verify_sig_determine_alg, SignatureAlgorithm::from_alg, convert_scheme", "crates/core/src/connection.rs: HandshakeData::verify", "crates/core/src/transcript/tls/builder.rs: map_signature_scheme"]}
{"id": "C107", "title": "Certificates are accepted only with a path to a root, for the name, at the time", "statement": "The client accepts a server's certificates if and only if the clock is not before 1970, the certificate parses, has a path through the presented intermediates to a configured root at the current second, is valid for the name, and its timestamps satisfy the policy, if there is one. A verifier is made of a root store if and only if all its certificates can be trust anchors, and accepts handshake data if and only if the key is the session's, the certificates have such a path at the session's time, and the first one's key made the signature over the two randoms and the key.", "quantifier": "every chain, name, time, root store, list of timestamps and policy", "why_tests_cant": "all chains, times, stores and timestamp lists", "anchors": ["crates/tls-core/src/verify.rs: WebPkiVerifier::verify_server_cert, CertificateTransparencyPolicy::verify", "crates/core/src/webpki.rs: ServerCertVerifier", "crates/core/src/connection.rs: HandshakeData::verify"]}
{"id": "C108", "title": "A verifier accepts the server of a session that the client accepted", "statement": "If the client completed a handshake and the leader returned a transcript, then the handshake data the prover shows to prove the server's identity is accepted by a verifier with the same roots and name, as long as the certificates are valid at the recorded time.", "quantifier": "every server, every history of the client's and the leader's calls, every certificate and key", "why_tests_cant": "all servers, key types and histories", "anchors": ["crates/mpc-tls/src/client/tls12.rs", "crates/mpc-tls/src/leader.rs: finish", "crates/tlsn/src/prover.rs: prove", "crates/core/src/connection.rs: HandshakeData::verify"]}
{"id": "C109", "title": "A client key is accepted exactly if it is in a supported encoding", "statement": "A private key given for client authentication is accepted if and only if it can be read as an RSA key in PKCS#1 or PKCS#8, an ECDSA key on P-256 or P-384 in PKCS#8 or SEC1, or an Ed25519 key in PKCS#8, and is used as the key of that kind; the PKCS#8 encoding made of a SEC1 key is the DER encoding, with the right curve, of exactly that key, of any length below 2^32 bytes.", "quantifier": "every byte string below 2^32 bytes, every behaviour of the key parser", "why_tests_cant": "all keys and lengths, at all boundaries of the DER length encoding; tests parse a few fixed keys", "anchors": ["crates/mpc-tls/src/client/sign.rs: any_supported_type, any_ecdsa_type, EcdsaSigningKey::convert_sec1_to_pkcs8", "crates/tls-core/src/x509.rs: wrap_in_asn1_len, wrap_in_sequence"]}
{"id": "C110", "title": "The client shows its identity only to an authenticated server that asked, and signs only this handshake", "statement": "The client sends a certificate only after the server's certificates led to a configured root for the configured name and the server proved its key, and only if the server asked; it sends the configured chain if and only if the server offered a scheme for the key, and an empty one otherwise. Its key signs at most once in a connection, exactly all handshake messages so far, with a scheme the server offered and the key can make, without a panic; if the key belongs to the certificate, the signature verifies. Without a configured identity nothing is signed.", "quantifier": "every configuration, every sequence of calls, every network input, every leader answer", "why_tests_cant": "an active attacker may repeat, reorder or omit messages at any point and offer any list of schemes", "anchors": ["crates/mpc-tls/src/client/hs.rs: ClientAuthDetails::resolve", "crates/mpc-tls/src/client/tls12.rs: emit_certificate, emit_certverify, ExpectServerDone", "crates/mpc-tls/src/client/sign.rs: RsaSigningKey, EcdsaSigningKey, Ed25519SigningKey, choose_scheme", "crates/mpc-tls/src/client/config.rs: AlwaysResolvesClientCert"]}
{"id": "C111", "title": "A TLS configuration is used as it was given", "statement": "A configuration is built if and only if a server name and roots were given, and holds what was given. A client is made of it if and only if all roots and the client's key, if any, can be read; it then checks servers against exactly these roots and this name, offers the schemes it accepts, and presents the given identity if there is one. An error names a root that cannot be read, or the key.", "quantifier": "every configuration and every behaviour of the parsers", "why_tests_cant": "all lists of roots and keys", "anchors": ["crates/core/src/config/tls.rs: TlsClientConfig, TlsConfigBuilder::build", "crates/tlsn/src/prover/client/mpc.rs: create_client_config", "crates/mpc-tls/src/client/config.rs: ClientConfig::new, ClientConfig::new_with_client_auth"]}
{"id": "C112", "title": "Reading from a JavaScript channel neither loses, repeats nor reorders bytes", "statement": "A party that runs in a browser reads from a channel given by JavaScript exactly the bytes the channel gave, in their order, in pieces no larger than asked for. A read waits only if there is nothing to give and a promise is open for which the waiting task will be woken; the channel is asked again only when everything was read and its last answer is in. An end of the stream is reported after the last byte and for ever, a failed read makes all later reads fail, and no read gives an end of the stream otherwise.", "quantifier": "every sequence of reads, writes, flushes and closes with any buffer sizes, every timing and answer of the JavaScript object", "why_tests_cant": "all interleavings of promises and polls, all splits of the data into pieces", "anchors": ["crates/wasm/src/io.rs: JsIoAdapter", "crates/sdk-core/src/io.rs: HyperIo::poll_read"]}
{"id": "C113", "title": "What was written to a JavaScript channel arrives, or an error is reported", "statement": "Bytes reported as written were given to the channel, once and in order, and a write that fails has a cause: an exception of the channel, a failed read or a close. The channel is closed at most once and gets nothing after it. If no error was reported, a flush that succeeds means that everything written has arrived.", "quantifier": "every sequence of operations, every answer of the JavaScript object", "why_tests_cant": "all histories, including promises that are rejected late or never", "anchors": ["crates/wasm/src/io.rs: poll_write, poll_flush, poll_close"]}
{"id": "C114", "title": "A JavaScript configuration takes effect as it was given", "statement": "A prover or verifier made from JavaScript has exactly the settings that were given, and the defaults of the protocol for those that were not: the limits proposed to the other party, the mode, the roots and name against which the server is checked, and the client's certificates and key. A prover is refused if and only if a root cannot be read, there are no roots, the name is empty, or a limit is zero in MPC mode; the error names the first bad root.", "quantifier": "every configuration, every behaviour of the parsers of certificates, names and keys", "why_tests_cant": "all combinations of settings that are given or left out, all certificates", "anchors": ["crates/wasm/src/prover/mod.rs: convert_prover_config", "crates/wasm/src/verifier/mod.rs: convert_verifier_config", "crates/sdk-core/src/config.rs: ProverConfigBuilder, build_root_store", "crates/sdk-core/src/prover.rs: build_tls_config"]}
{"id": "C115", "title": "The calls of a JavaScript program do what they say", "statement": "Each call has the effect and the answer of the SDK's call, with the ranges, algorithms and flags that were given: when reveal succeeds, the proof is about the request that succeeded and shows exactly the given ranges. A request whose channel does not fit the mode is refused and changes nothing, at any time. After reveal, no call of the protocol succeeds. The progress callback is told of the completion of a step if and only if it succeeded, at most once per step and in their order.", "quantifier": "every sequence of calls, every result of the protocol, including calls that are abandoned", "why_tests_cant": "all orders of calls and failures", "anchors": ["crates/wasm/src/prover/mod.rs: JsProver", "crates/sdk-core/src/prover.rs: SdkProver"]}
{"id": "C116", "title": "A request is sent as it was asked for", "statement": "A request given to the SDK or to the JavaScript class is sent if and only if its address, and the name and value of each header, are valid; it then has the method, the address, exactly the headers and the body that were given, where a text is sent as it is and other values as JSON.", "quantifier": "every request, every order in which the hash maps list the headers", "why_tests_cant": "all requests and orders", "anchors": ["crates/sdk-core/src/types.rs: TryFrom<HttpRequest>", "crates/wasm/src/prover/mod.rs: convert_http_request"]}
{"id": "C117", "title": "The caller gets the response that was received", "statement": "The response given to the caller has the status and the body that were received, and each header that was received, with its name and value, the values of one name in their order.", "quantifier": "every response, every order of the header map", "why_tests_cant": "all responses, including repeated headers", "anchors": ["crates/sdk-core/src/prover.rs: send_request", "crates/wasm/src/prover/mod.rs: convert_http_response"]}
{"id": "C118", "title": "The built-in signers of attestations sign validly, and a provider of signers holds exactly what was configured", "statement": "For any sequence of configuring calls a provider of signers returns, for an algorithm, the signer of the last call that configured it; refused keys and calls for other algorithms change nothing, unknown algorithms have none, and the listed algorithms are those with a signer. What a built-in signer signs is valid under its own algorithm for the verifying key it states (an Ethereum signature ends in 27 or 28), so an attestation a notary built with it verifies under the default verifiers. A user cannot create an identifier of a built-in algorithm.", "quantifier": "every sequence of configuring calls, key bytes, message, algorithm identifier, request and setter calls", "why_tests_cant": "tests configure one signer and check one signature per algorithm; which signer answers after an arbitrary history of successful and refused calls, and that every signature verifies, ranges over all histories and messages", "anchors": ["crates/attestation/src/signing.rs: SignerProvider, Secp256k1Signer, Secp256r1Signer, Secp256k1EthSigner, SignatureAlgId::new, KeyAlgId::new", "crates/attestation/src/provider.rs: CryptoProvider"]}
{"id": "C119", "title": "The default verifiers accept exactly the documented signatures", "statement": "A signature is accepted under an algorithm exactly if the key has the algorithm's key type, key and signature are encoded as documented, and the curve accepts it for the documented hash; other algorithms are unknown unless the user adds a verifier, which replaces only those of its algorithm. A valid signature is valid under one algorithm only. If nobody can forge signatures of digests for a key, every verified attestation that names the key has a header its holder signed, or two messages with the same digest exist.", "quantifier": "every key, message, signature, algorithm identifier, list of added verifiers and attestation proof", "why_tests_cant": "tests verify a few good and bad signatures; that nothing else is accepted in any of the algorithms a key serves is a statement about all inputs", "anchors": ["crates/attestation/src/signing.rs: SignatureVerifierProvider, Secp256k1Verifier, Secp256r1Verifier, Secp256k1EthVerifier", "crates/attestation/src/proof.rs: AttestationProof::verify"]}
{"id": "C120", "title": "The output of the SDK's and the JavaScript verifier is true of the session, whatever the prover sends", "statement": "Whatever message arrives from the prover, if `verify` returns an output then `run` succeeded before, the time, TLS version and lengths are those of the session, the authenticated ranges lie inside the data, in order and apart, the bytes in them are those of the session and all other bytes are zero. A transcript is there exactly if the prover asked to show one. A server name in the output is one for which a chain of valid certificates leads to a root that the program configured (Mozilla's if it gave none), with a signature of the certificate's key for this session.", "quantifier": "every sequence of calls, configuration of roots, session, message from the prover (malformed ones included) and state of the channel", "why_tests_cant": "tests run the verifier against the honest prover; the claim is about every message a malicious prover can send, in every history of calls", "anchors": ["crates/sdk-core/src/verifier.rs: SdkVerifier::verify", "crates/wasm/src/verifier/mod.rs: JsVerifier, convert_verifier_output", "crates/tlsn/src/verifier.rs: Verifier::verify, accept"]}
{"id": "C121", "title": "A JavaScript prover and a JavaScript verifier agree on exactly what the prover's program chose", "statement": "If the prover has a response and its program calls `reveal` with ranges inside the data, the call returns openings, one for each committed range, and the verifier that gets the message returns an output: with the server's name exactly if the program asked for it, and with authenticated ranges that cover exactly the positions the program chose, showing the session's bytes.", "quantifier": "every session, list of ranges (overlapping, empty, in any order) and commitments, choice of identity, blinders and order of the commitments in the hash map", "why_tests_cant": "an end-to-end test reveals a few ranges of one response; that nothing is added, lost or moved by the conversions on the way holds for all lists of ranges", "anchors": ["crates/wasm/src/prover/mod.rs: JsProver::reveal", "crates/sdk-core/src/prover.rs: SdkProver::reveal", "crates/wasm/src/verifier/mod.rs: JsVerifier::verify", "crates/core/src/transcript.rs: PartialTranscript"]}
{"id": "C122", "title": "A plugin's handlers decide exactly what the verifier's program sees", "statement": "If a program passes a plugin's handlers to `compute_reveal` with the session's data, and the fields `reveal` and `commit` of the result to `Prover.reveal`, then, if every handler applies, the verifier's program gets the server's name and an output that covers exactly the positions selected by the REVEAL handlers, with the session's bytes, and the prover's program gets an opening for every position selected by a HASH handler. Handlers and results are unchanged by a round trip through JSON. (The names of the fields in the documentation of `compute_reveal` are not those of the object: false of the code.)", "quantifier": "every list of handlers, pair of messages, session, choice of blinders and order of the commitments", "why_tests_cant": "a test passes a few handlers on one page; the claim is about all combinations of parts, parameters and actions through five layers of conversion", "anchors": ["crates/wasm/src/handler.rs: compute_reveal", "crates/sdk-core/src/handler/mod.rs: ComputeRevealOutput, RangeWithHandler", "crates/sdk-core/src/types.rs: Handler, HandlerAction, HandlerParams, Reveal, Commit", "crates/wasm/src/types.rs: Reveal, Commit, CommitRange"]}
{"id": "C123", "title": "In the proxy mode the server that the client authenticated is the one the verifier names", "statement": "The TLS client of the proxy mode trusts exactly the roots of its configuration and offers only what the verifier can check: TLS 1.2, two cipher suites, one group, no resumption; the configuration is refused if and only if a root, the provider or the client's key does not allow this. For a session in which that client authenticated the server and which the verifier accepted, the prover's handshake data makes a verifier with the same root store name the server, for every kind of key; the only exception is a chain that is no longer valid at the time that the verifier recorded, for which it reports the certificate.", "quantifier": "every configuration, root store, provider, network schedule, set of TLS records and certificate chain", "why_tests_cant": "a test has one server with one chain; the claim joins two implementations of the checks (rustls in the client, the verifier's own) over all bytes on the wire", "anchors": ["crates/tlsn/src/prover/client/proxy/mod.rs: create_client_config, ALLOWED_CIPHER_SUITES, ALLOWED_KX_GROUPS", "crates/core/src/connection.rs: HandshakeData::verify", "crates/tlsn/src/verifier/verify.rs: verify"]}
{"id": "C124", "title": "The log filter lets through exactly the events that the configuration asks for", "statement": "An event is logged if and only if its level is let through by the level that governs its crate: that of the first filter that names the crate, where upper and lower case letters are the same, or else the global level, which is Info by default. The crate is what is before the first `::` of the event's target. (The configured span events are documented to select which are logged; they have no effect: false of the code.)", "quantifier": "every configuration, target and level", "why_tests_cant": "the filter ranges over all strings; a test has a few names", "anchors": ["crates/sdk-core/src/logging.rs: filter, LoggingConfig, LoggingLevel", "crates/wasm/src/log.rs: init_logging, LoggingConfig"]}
{"id": "C125", "title": "What is proven in zero knowledge about the transcript uses the keys of the session", "statement": "After the dual-execution machine translates the session keys of the MPC part to the zero-knowledge part, each of the five translated keys is a reference of the same length, no translation panics for keys that were computed in the machine, and once a party has finalized, the zero-knowledge part contains at each translated reference what the recorded circuits make of the committed inputs at the reference of the session, with the same inputs with which the follower compared every output decoded in the MPC part.", "quantifier": "every MPC machine, role, sequence of calls before and after the translation, and set of key references", "why_tests_cant": "the key references depend on the history of allocations; a test has one", "anchors": ["crates/tlsn/src/deps.rs: translate_keys", "crates/deap/src/lib.rs: Deap::translate, finalize"]}
{"id": "C126", "title": "Each direction of the connection is encrypted under its own keys", "statement": "The record layer, set up with the keys of the key derivation, encrypts with the client's key and IV, decrypts with the server's, in whatever order both are used; what is handed to the proof as the session keys are those same references, and the server write MAC key is the GHASH key of the server's direction. The set-up succeeds and no use panics.", "quantifier": "every machine, role, key, IV, pad, amount of resources and interleaving of uses of both ciphers", "why_tests_cant": "a swapped key is only seen with different keys and a peer; the claim is for all keys, blocks and interleavings", "anchors": ["crates/mpc-tls/src/utils.rs: alloc_session", "crates/mpc-tls/src/record_layer.rs: set_keys, alloc", "crates/mpc-tls/src/record_layer/aead/aes_gcm.rs: MpcAesGcm"]}
{"id": "C127", "title": "After the connection is closed the leader, and only the leader, has the server's key", "statement": "Decoding the server's key gives the leader exactly the key and IV of the server's direction, and the leader decrypts with them. The follower has no key afterwards and every decryption it tries is an error. What is decoded in the presence of the follower is masked so that every key is equally possible for the follower. Calls in any other order are errors and do not panic.", "quantifier": "every machine, key, IV, pad, amount of resources, later use of the machine, and sequence of calls", "why_tests_cant": "secrecy is a statement about all keys; the state machine has unboundedly many histories", "anchors": ["crates/mpc-tls/src/record_layer/aes_gcm.rs: AesGcm, alloc, decode_key, finish_decode, decrypt"]}
{"id": "C128", "title": "A response that was cut off on the network is not passed off as complete", "statement": "If the prover is committed and the verifier accepts the connection, then what the server sent ends with its closing alert, as TLS requires so that truncation is noticed. (False of the code: both accept a connection that ends after any application data. What holds: a direction accepted at the end that does not end with application data is closed by its alert.)", "quantifier": "every transcript, every point at which it is cut off, every schedule of the prover", "why_tests_cant": "the fixture servers close properly; an attacker chooses the point of truncation", "anchors": ["crates/mpc-tls/src/utils.rs: verify_transcript, check_close_notify", "crates/tlsn/src/prover.rs: poll", "crates/tlsn/src/prover/client/mpc.rs: server_close"]}
{"id": "C129", "title": "The transcript that the prover commits to is that of the connection its TLS client made", "statement": "When the TLS client runs on an MPC leader, in whatever way it is called, and the leader then gives a transcript, the transcript is about the handshake that the client checked for the configured server name: same randoms, key, certificates and signature, and Finished messages for the hash of exactly the messages of this handshake. The data sent according to the transcript is a prefix of what the application wrote; what the application read is a prefix of the data received according to the transcript; the received records are those that came from the network.", "quantifier": "every sequence of calls to the client, every network input, every configuration, every session of the leader whose calls succeed", "why_tests_cant": "client and leader are tested together only with a few honest servers; the property is about all interleavings and network inputs", "anchors": ["crates/mpc-tls/src/client/conn.rs: process_new_packets, ConnectionCommon", "crates/mpc-tls/src/client/tls12.rs: ExpectFinished, ExpectServerDone", "crates/mpc-tls/src/leader.rs: MpcTlsLeader", "crates/tlsn/src/deps/prover.rs: setup"]}
{"id": "C130", "title": "The leader hands out exactly the records that are in its transcript", "statement": "If a leader gives a transcript, then the messages it gave to the client to read are, with types and contents and in their order, the first of the received records in the transcript, and the records it gave to the client to send are the first of the sent ones byte for byte; if the leader says before that it has nothing left, they are all of them.", "quantifier": "every sequence of calls on the leader, whatever fails", "why_tests_cant": "the buffers and the lists of records are different fields that are filled in several places; all interleavings of pushes, flushes, reads and failures matter", "anchors": ["crates/mpc-tls/src/leader.rs: next_incoming, next_outgoing, close_connection, finish, is_empty", "crates/mpc-tls/src/record_layer.rs: next_decrypted, next_encrypted, flush, commit"]}
{"id": "C131", "title": "What the verifier accepts is what the prover's application wrote and read", "statement": "A prover's application uses a TLS client that runs on an MPC leader; the follower, with honest garbling and equal views of the session's values, gives a transcript, and a verifier on it accepts proofs. Then each authenticated byte of the sent data in an output of the verifier is the byte that the application wrote at this place, and each authenticated byte of the received data is the one that the application has read there, as far as it has read; the verifier counts no more sent bytes than were written and no fewer received bytes than were read. If the output names a server, then the certificates were checked for this name, for the key of a handshake that the client had checked, at the time the leader told.", "quantifier": "every sequence of calls to the client, every network input, every session of leader and follower that ends with transcripts, every sequence of verifier calls with proofs of any kind", "why_tests_cant": "the composition of four state machines over all their histories; an end to end test runs one history with an honest server", "anchors": ["crates/tlsn/src/prover.rs: Prover::connect, prove", "crates/tlsn/src/verifier.rs: Verifier::run, verify", "crates/mpc-tls/src/leader.rs: MpcTlsLeader", "crates/mpc-tls/src/follower.rs: MpcTlsFollower::run", "crates/mpc-tls/src/client/conn.rs: ConnectionCommon"]}
{"id": "C132", "title": "A connected client does not negotiate again", "statement": "If the server sends HelloRequest to a connected client, the client gives its backend one alert record, the warning no_renegotiation, and nothing else about it changes: not its state, not the data to be read or sent. If the server sends any other handshake message, the client fails with an error after it has given the backend the fatal alert unexpected_message, and nothing reaches the application by it.", "quantifier": "every state of a connected client, every handshake message, every history of the backend", "why_tests_cant": "every message and state", "anchors": ["crates/mpc-tls/src/client/conn.rs: process_main_protocol, send_fatal_alert, send_warning_alert", "crates/mpc-tls/src/client/tls12.rs: ExpectTraffic::handle"]}
{"id": "C133", "title": "An error about missing commitments names exactly the ranges", "statement": "If revealing fails because positions are not committed, the text of the error names the direction and exactly the positions that were asked for and that no commitment contains, as a list of maximal ranges; two errors with the same text are about the same direction and the same positions. If building a proof fails, the text names positions that were asked for, at least one, and each one that it does not name is in a usable commitment; the sets can be read back from the text.", "quantifier": "every transcript, every list of commitments, every history of calls to the builder, every requested set", "why_tests_cant": "every set of ranges; that no two sets have the same text is a statement about all pairs", "anchors": ["crates/core/src/display.rs: FmtRangeSet", "crates/core/src/transcript/proof.rs: TranscriptProofBuilder::reveal, build, TranscriptProofBuilderError, QueryIdx"]}
{"id": "C134", "title": "An accepted age proof shows that a date in the session is more than 18 years ago", "statement": "If the verifier of the zero-knowledge example accepts, then the server is the expected one and the date of birth in its response is such that the eighteenth birthday is before the date of the verifier's clock (who was born on 29 February becomes 18 on the first of March if the year has no such day), unless somebody found a collision of SHA-256 or broke the proof system. Somebody who is old enough is accepted with a proof for today.", "quantifier": "every prover and everything it sends in the session and after it, every response, every date of birth, every date of the clock", "why_tests_cant": "every proof, every pair of dates, including the years that the circuit and the verifier read as different numbers", "anchors": ["crates/examples-zk/verifier.rs: verifier", "crates/examples-zk/noir/src/main.nr: main, check_18, check_hash, parse_birth_date", "crates/examples-zk/types.rs: received_commitments, ZKProofBundle", "crates/examples-zk/prover.rs: generate_zk_proof"]}
{"id": "C135", "title": "Bytes that were not revealed are zero in the output of a verifier", "statement": "Whatever a prover sends, the partial transcript in an output of the verifier is the data of the session with every byte that was not revealed set to zero. So a text without zero bytes that a user finds in the data of the output, also with the accessors for data that may not be authenticated, stands in the session's data at the same place, and all of it was revealed.", "quantifier": "every history of calls of the verifier, every message of a prover, every text and place", "why_tests_cant": "a malicious prover may send any bytes; all messages, histories and texts", "anchors": ["crates/core/src/transcript.rs: PartialTranscript::sent_unsafe, received_unsafe, CompressedPartialTranscript", "crates/tlsn/src/verifier/verify.rs: verify", "crates/tlsn/src/verifier.rs: Verifier::accept"]}
{"id": "C136", "title": "The transcript that an example verifier returns is true of a session with the expected server", "statement": "If the verifier of the basic example returns a transcript, then the prover had proposed MPC with a sent limit of at most 4096 and a received limit of at most 16384 bytes and the verifier's own version, the identity of the expected server was verified for the session's ephemeral key, the transcript is the session's data with hidden bytes set to zero, and the two texts the verifier looks for stand in revealed bytes of the session. The verifier of the proxy example gives the same for either mode, without the limits. A prover that reveals the two texts and the identity in a session with that server is accepted with just what it reveals.", "quantifier": "every proposal and every message of a prover, every session, every selection of revealed bytes", "why_tests_cant": "the examples are run with one honest prover; a malicious one may propose and send anything", "anchors": ["crates/examples/basic/basic.rs: verifier", "crates/examples/proxy/proxy.rs: verifier", "crates/examples/attestation/verify.rs: verify_presentation (C100)"]}
{"id": "C137", "title": "The kind of an error says who caused it", "statement": "When `commit` or `prove` of a prover fails, `is_user` holds exactly if the verifier rejected, `is_io` exactly if a message was not sent or received, `is_config` never, and `is_internal` otherwise; the text of a user error ends with the reason that the verifier's user gave, and a rejected statement leaves the prover able to prove another. When a call of a verifier fails, `is_io` holds exactly if the channel failed, `is_config` exactly if its root store cannot be used or the prover runs another version, `is_user` never, but for a wrong finished message in proxy mode. For different versions both users are shown the same text.", "quantifier": "every request, configuration, answer, failure of the channel, of the setup and of the proof, in every state", "why_tests_cant": "all combinations of failures at every step; the tests look at some messages", "anchors": ["crates/tlsn/src/error.rs: Error", "crates/tlsn/src/prover.rs: commit, prove", "crates/tlsn/src/verifier.rs: commit, accept, reject, verify", "crates/tlsn/src/msg.rs: Response, RejectionReason", "crates/tlsn/src/verifier/verify.rs: verify", "crates/tlsn/src/prover/prove.rs: prove"]}
{"id": "C138", "title": "A program in JavaScript is told why it was rejected", "statement": "If the limits of an SDK verifier refuse the configuration a prover proposes, the prover's `setup` throws a text that names the first limit exceeded, and the verifier's throws that it refused; within the limits both go on. The text thrown by a prover's `setup` or `reveal` begins with \"Protocol: user error\" exactly if the verifier rejected, and then ends with the verifier's reason.", "quantifier": "all limits, configurations, reasons, and failures of the channel, the setup and the proof", "why_tests_cant": "all limits and all places of a failure; the texts pass through four layers", "anchors": ["crates/sdk-core/src/error.rs: SdkError", "crates/sdk-core/src/verifier.rs: setup", "crates/sdk-core/src/prover.rs: setup, reveal", "crates/wasm/src/prover/mod.rs: setup, reveal", "crates/wasm/src/verifier/mod.rs: setup", "crates/tlsn/src/error.rs: Error"]}
{"id": "C139", "title": "Names of servers as keys", "statement": "The encodings of server names are prefix-free and unique: whatever follows two encodings, the results are equal only if the names and what follows are. A name made from a text is the one for the SNI extension.", "quantifier": "all valid DNS names and all bytes that follow", "why_tests_cant": "all pairs of names", "anchors": ["crates/tls-core/src/dns.rs: ServerName::encode, for_sni, TryFrom"]}
{"id": "C140", "title": "A prover that waits is woken when it can go on", "statement": "If polling the connected prover returns Pending and the task was not woken in the poll, then the prover cannot go on: the socket had nothing to read or is at its end, all bytes it gave are with the TLS client, bytes that the application wrote were taken, and the connection is not in the middle of closing. A change of the choice to decrypt wakes the task.", "quantifier": "every configuration, every schedule of polls, writes, reads, closes and choices, every behaviour of the socket, the server and the leader", "why_tests_cant": "a lost wake-up shows only in particular interleavings, and then as a program that hangs", "anchors": ["crates/tlsn/src/prover.rs: io_to_tls_client, io_from_tls_client, poll", "crates/tlsn/src/prover/client/mpc.rs: poll", "crates/tlsn/src/prover/client.rs: DecryptState"]}
{"id": "C141", "title": "In proxy mode the closing alert follows everything the application wrote", "statement": "In proxy mode the TLS connection of the prover is asked to send exactly the bytes the application wrote, in order; what it has not been asked to send waits. The closing alert is asked for at most once, only after the application has closed its side and all its bytes were taken, and nothing is asked for after it. Once the application has closed and its bytes were taken, the next poll of a connected prover that does not fail asks for the alert unless the server has closed.", "quantifier": "every TLS connection, every schedule of polls, writes, reads and closes, every behaviour of the socket and of the verifier, also after errors", "why_tests_cant": "a byte lost at the close, or a second alert, depends on how closing, writing and polling interleave", "anchors": ["crates/tlsn/src/prover/client/proxy/mod.rs: write, client_close, poll", "crates/tlsn/src/prover.rs: io_to_tls_client, poll"]}
{"id": "C142", "title": "The error of the HTTP committer names the part that does not fit", "statement": "When committing to the parsed messages of a session fails, the error names the kind (request or response) of the first message that does not fit and a part of it with a position outside of the transcript; all earlier messages lie in the transcript, and no response is looked at before all requests have been committed. The texts of two parts differ for every choice of header names. When the parts of each message lie in the message, the error is always about the entire message. The error never carries the number of the message. How errors are told does not change what is committed.", "quantifier": "every list of requests and responses with any spans, headers and bodies, every transcript and every state of the builder", "why_tests_cant": "the tests of the crate commit to messages that fit; which of the many parts is blamed depends on the whole session", "anchors": ["crates/formats/src/http/commit.rs: HttpCommitError, HttpCommit, DefaultHttpCommitter", "crates/formats/src/json/commit.rs: JsonCommit"]}
