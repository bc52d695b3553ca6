# Formal model of tlsnotary/tlsn in Lean 4

## Approach

Each modelled Rust function becomes a total computable Lean function with a comment citing its file and lines.
`&mut self` methods return the new state, panics are explicit `panic` results (`Outcome` in `Base/Basic`), `Result` and
`Option` stay data. Arithmetic on `usize`, `u64`, `u32` and `u16` wraps where the code can reach the bound, because no
release profile of the workspace enables overflow checks.

Functions outside the repository (hash functions, AES, signature schemes, webpki, the garbled-circuit and ZK virtual
machines, share conversion, the HTTP/JSON parser, the regex engine) are parameters of the model. What is assumed of
them is a hypothesis of the theorem that needs it. Where security rests on a hash function, the conclusion is "... or
here are two different inputs with the same hash", so nothing is assumed about collisions.

Asynchronous code is modelled by the order in which its effects happen. A future dropped half way, a failed channel
or a peer that answers with anything are arguments of the call (`Ext`, `Fault`, or an arbitrary function).

Each area has the files `Model` (the code), `Spec` (what the property says, without the model's helpers), `Props` (the
property theorems, named `Cdd_...`) and helper files.

## Plan per property

The English statements are in `properties.jsonl`, the theorem names in `MANIFEST.json`. Each theorem's file also has the examples showing that its hypotheses can be met.

| id | what is modelled, and how it is proved | Lean |
|---|---|---|
| C01 Redacting a transcript hides every byte that was not selected | `Transcript`, `to_partial` over byte lists and canonical range sets. Exactness pointwise; non-interference as equality of outputs for transcripts that agree on the selected positions. | `Transcript/Props` |
| C02 Partial transcripts survive serialization | Compression and decompression. The round trip is characterised byte by byte. | `Transcript/Props` |
| C03 Deserialized partial transcripts are well formed | The `TryFrom` validation of received partial transcripts. Acceptance, refusal and panic are iffs; accepted values satisfy the invariant all later operations need. Disagreement 32: the stated lengths are allocated unchecked. | `Transcript/Props` |
| C04 Merging partial transcripts | `union_transcript` with an explicit panic. Pointwise meaning; algebra of redactions of one transcript. | `Transcript/Props` |
| C05 Filling unauthenticated bytes never touches authenticated data | `set_unauthed`, `set_unauthed_range`. Pointwise. | `Transcript/Props` |
| C06 Reading a subsequence | `get`, `Subsequence::new`. Exact characterisation. | `Transcript/Props` |
| C07 An honest merge history never corrupts a partial transcript | Invariant by induction over arbitrary lists of operations. | `Transcript/Props` |
| C08 Merging a subsequence overwrites | `union_subsequence`. Pointwise, with a concrete witness that authenticated bytes can be overwritten. | `Transcript/Props` |
| C09 Transcript proof soundness | `TranscriptProof::verify_with_provider` as a fold. Loop invariant, acceptance as an iff. | `Proof/Props` |
| C10 A verified transcript proof tells the truth or exhibits a collision | The hash is a parameter. The conclusion is byte equality or an explicit collision. | `Proof/Props` |
| C11 Proof builder completeness | Proof builder and greedy cover, composed with the verifier of C09. | `Proof/Props` |
| C12 A transcript proof discloses nothing beyond what was revealed | Invariant of the cover loop; non-interference as equality of the proofs of two transcripts. | `Proof/Props` |
| C13 Reveal requests are validated and failure leaves no trace | Exact result of `reveal` in all reachable builders, by induction over histories. | `Proof/Props` |
| C14 Covering revealed data with commitments | Completeness of the greedy cover for one kind; counterexample for two kinds (disagreement 3). | `Proof/Props` |
| C15 Commitment configuration is always in bounds | Commit configuration builder. Induction over call sequences; the hash set's order is an arbitrary permutation. | `Config/Props` |
| C16 Prove configuration reveals exactly what was asked | Prove configuration builder. Induction over call sequences. | `Config/Props` |
| C17 MPC-TLS configuration validity | Configuration, (de)serialization and derivation of the protocol configuration with wrapping arithmetic. Partial: see disagreements 4 and 5. | `Config/Props` |
| C18 Merkle proofs for honest trees verify | The layered Merkle tree algorithm of `rs_merkle`, for any number of leaves. Induction over layers. | `Merkle/Props` |
| C19 Merkle proofs are binding for a known leaf count | Induction over layers with an explicit-collision disjunct. | `Merkle/Props` |
| C20 Attestation proofs can be forged by choosing leaf contents | Generic forgery for any hash with outputs of at most 64 bytes (disagreement 1); the positive theorem holds under a condition on lengths the code does not check. Partial. | `Attestation/PresentationProps`, `Attestation/Props`, `Merkle/Props` |
| C21 Attestation proof completeness | C18 composed with the encoding of body fields. | `Attestation/Props` |
| C22 Attestation acceptance requires the signature | Acceptance as an iff; binding to the signed header through C19. | `Attestation/Props` |
| C23 Presentation verification binds the parts together | Acceptance as an iff; soundness from the parts' soundness; completeness of the whole request, attestation, presentation protocol. | `Attestation/PresentationProps` |
| C24 Server handshake data verification | Acceptance as an iff over an abstract certificate verifier and signature check; injectivity of the signed message. | `Attestation/PresentationProps` |
| C25 Notary request/attestation consistency | Acceptance as an iff; witness for the missing root check (disagreement 2). | `Attestation/PresentationProps` |
| C26 Hash values and typed encodings | Round trip and injectivity of `Hash` values. | `Hash/Props` |
| C27 Record sequence numbers and nonces are never reused | State machine of the record layer (encrypt, decrypt, flush, commit, failures). Invariant by induction over histories. | `RecordLayer/Agreement`, `RecordLayer/AuthProps`, `RecordLayer/Nonces` |
| C28 Traffic limits are enforced | Same state machine. Partial: lengths of 2^63 and more wrap (disagreement 7). | `RecordLayer/AuthProps`, `RecordLayer/Limits` |
| C29 Records keep their order and none is lost | Same state machine with a ghost history. | `RecordLayer/AuthProps`, `RecordLayer/Props` |
| C30 MPC GHASH equals GHASH | Polynomial evaluation by shares of powers in a commutative ring of characteristic two; ideal share conversion is a hypothesis; composed with the concrete GF(2^128) of GCM. | `Ghash/Props` |
| C31 GHASH input encoding is injective | Injectivity over byte lists, with the truncation witness. | `Ghash/Props` |
| C32 Authenticated plaintext really decrypts the recorded ciphertext | `alloc_keystream`, `alloc_plaintext`, the ZK proof's checks, over an ideal VM; position arithmetic by induction over records. | `Auth/Props` |
| C33 Verifier output is exactly what was requested and proven | Decision logic of `verify` on arbitrary prover messages. | `Auth/Props` |
| C34 A malicious commit request can crash the verifier | Panic value in the model; exact panic condition and a concrete request (disagreement 6). | `Auth/Props` |
| C35 Tag verification | `verify_tags` over an ideal VM; fold over records. | `Tags/Props` |
| C36 TLS integers and vectors round-trip | Codec of integers, payloads, vectors, enums. Round trip; truncation witness. | `Tls/FrameProps` |
| C37 Deframing does not depend on how bytes arrive | The deframer refined to a whole-stream parser, for all chunkings. | `Tls/FrameProps`, `Tls/Pending` |
| C38 Fragmenting preserves the message | Fragmenter lemmas composed with C37. | `Tls/FrameProps` |
| C39 Handshake joining does not depend on fragmentation | The handshake joiner refined to a whole-stream parser. | `Tls/FrameProps` |
| C40 Byte buffers are FIFO and respect their limit | The chunked buffer refined to a byte list. | `Tls/VecBufProps` |
| C41 Handshake transcript hashes cover the right bytes in the right order | Building a TLS transcript from the two raw streams; hash inputs against RFC 5246/7627 order. Partial: session hash with a ticket (disagreement 9). | `Tls/HelloRetry`, `TlsTranscript/Props` |
| C42 Parsed TLS records are sequential and complete | Record numbering, application data distribution, accessors. Exact acceptance; panics only for empty lists (disagreement 10). | `TlsTranscript/Props` |
| C43 Follower message handling | The follower's message loop over ideal VM, PRF and key exchange. Induction over message sequences; exact panics (disagreement 11). | `Session/Panics`, `Session/Props` |
| C44 Both PRF modes compute the TLS 1.2 PRF | HMAC, P_hash, both PRF modes over an ideal VM, against RFC 5246/7627. Invariant over histories; the reduced mode's endless loop (disagreement 12). | `Prf/Alloc`, `Prf/Props` |
| C45 Key-exchange shares add up to the shared point's x coordinate | Mathlib's Weierstrass group law on P-256's equation for any prime field; the circuit on bit vectors; state machine of both parties. | `KeyExchange/Props` |
| C46 Keystream material is used once | Block lists; histories of `consume`. | `Cipher/Props` |
| C47 Address translation between the MPC and ZK memories | `MemoryMap` with any binary search that meets its documentation. | `Deap/MapProps` |
| C48 Range maps resolve positions to the right memory | `RangeMap` as a list of items. | `Auth/Props` |
| C49 Close-notify rule | Decision logic of the final check of both parties. | `Session/Props` |
| C50 Handlers map to the right ranges and actions | `extract_*`, `compute_reveal`, `reveal` over parsed messages with spans. Position-wise specification; composed with C15/C16. | `Sdk/Example`, `Sdk/Plan`, `Sdk/Reveal`, `Sdk/Select` |
| C51 Hiding a JSON value can reveal it | Same model. Partial: the option fails for array elements and two path forms (disagreement 13). | `Sdk/Example`, `Sdk/Select` |
| C52 Connection lengths are truncated to 32 bits | Arithmetic modulo 2^32. | `Transcript/Props` |
| C53 Canonical serialization is injective and domain separated | BCS and domain separation. Injectivity. | `Attestation/Props` |
| C54 Attestation builder contents | Attestation builder: induction over setter histories. | `Attestation/Props` |
| C55 Partial transcript queries | Exact characterisations. | `Transcript/Props` |
| C56 Attestation request contents | Request builder: exact characterisation. | `Attestation/PresentationProps` |
| C57 The leader delivers only authenticated application data | Record layer with GHASH tags: what is delivered was authentic; witness for the gap at `commit` (disagreement 8). | `RecordLayer/AuthProps` |
| C58 A session within its limits does not fail | Liveness of an honest session within its limits: no call fails. | `RecordLayer/Complete` |
| C59 Leader and follower commit to the same records | Leader and follower record layers in lock step; relation between the two states. | `RecordLayer/Agreement` |
| C60 Application data cannot be passed off as another record type | Partial: the follower trusts the leader's content type (disagreement 8). | `RecordLayer/Agreement` |
| C61 The prover discloses nothing outside of the revealed ranges | Relational proof over two provers. | `Auth/ProveProps` |
| C62 Prover and verifier run the same circuit | Simulation between the prover's and the verifier's VM. | `Auth/ProveProps` |
| C63 An honest prover is accepted | Honest completeness of `prove`/`verify` and of the commitments' openings. | `Auth/ProveProps` |
| C64 A claimed server identity may be missing | Verifier's decision logic; concrete witness (disagreement 6). | `Auth/Props` |
| C65 Handshake messages are parsed exactly | All TLS 1.2 handshake messages of `tls-core`: parse and encode are inverse on exactly the representable messages. | `Tls/HandshakeProps` |
| C66 The handshake hash covers the bytes on the wire | `HandshakeHash` composed with C39 and C65. | `Tls/HandshakeProps` |
| C67 The handshake data of a transcript is what was on the wire | Fields of a built TLS transcript against the handshake on the wire. | `TlsTranscript/Props` |
| C68 The session keys are those the server derives | C44 and C45 composed with the server's own computation. | `KeyExchange/Props` |
| C69 The prover's TLS transcript is what the connection contained | The leader's calls as a state machine over the layer, PRF and key exchange models; induction over call sequences. | `Session/LeaderProps` |
| C70 Prover and verifier end with the same records | Relation between leader and follower along the leader's messages. | `Session/LeaderProps` |
| C71 The messages to the verifier do not depend on the request | Relational proof: two leaders with different application data of equal lengths send the same messages. | `Session/Secrecy` |
| C72 DEAP: accepted outputs are those of the committed inputs | The dual-execution VM with an arbitrary (malicious) MPC VM and an ideal ZK VM; invariant over histories. | `Deap/Props`, `Deap/Secret` |
| C73 The SDK's openings open what was asked | `build_reveal_output` over the honest prover output of C63. Partial: order and duplicates (disagreement 14). | `Sdk/Openings` |
| C74 Format committers commit exactly the documented parts | Default HTTP and JSON committers over parsed documents; mutual induction over JSON values. | `Sdk/CommitterProps` |
| C75 The SDK verifier's limits | SDK verifier's checks of the proposal; arithmetic of the derived configuration (disagreement 15). | `Sdk/MachineProps` |
| C76 SDK calls succeed only in order, and failures are final | SDK prover and verifier as state machines; invariant over call sequences including dropped futures (disagreement 16). | `Sdk/MachineProps` |
| C77 No application data before the server is authenticated | The client's connection and TLS 1.2 states as a program over an event log; every call of every history keeps an invariant relating the state to the events of one honest session (`Client/Spec`). | `Client/Props` |
| C78 The TLS client delivers and sends bytes unchanged, in order and without gaps | Ghost fluxes of bytes in and out, kept by each function (`Client/Flow*`); deframer from C37, fragmenter from C38. Data in unprotected records is not delivered: Client/Unprotected.lean (`C78_protected`), a second invariant: either no such record was taken, or the connection has failed before the change of cipher spec. | `Client/Props`, `Client/Unprotected` |
| C79 Plaintext and encrypted epochs are not mixed | From the same invariant: what was allowed when each event happened. | `Client/Props` |
| C80 Errors of the TLS client are final | The failed state is absorbing; which errors are kept (disagreement 18). Partial: errors returned by `?` are not kept. | `Client/Props` |
| C81 The TLS client asks the leader for each handshake secret at most once, about the right transcript | From the same invariant; the corollary discharges the hypothesis of C69 on the caller of the leader. | `Client/Faithful`, `Client/Props` |
| C82 After the handshake the client keeps reading until the server closes | Invariant on the close flag; the witness that an unauthenticated alert sets it (disagreement 19). | `Client/Props` |
| C83 An honest handshake completes | Symbolic execution of every state on the messages of an arbitrary acceptable session; converse of C77. | `Client/Complete` |
| C84 The prover's connection carries the application's bytes faithfully | A function per step of the prover's poll loop; the schedule, the socket and the readiness of each future are inputs. The pipes are byte queues. Invariant that ghost histories are the concatenation of what was moved and what waits; then C77 and C78. | `Drive/Props`, `Drive/Settled` |
| C85 When the prover's future ends | Invariants over the same runs: which state of the client implies what about the pipes, the connection and the leader's events; the count of closing alerts. | `Drive/Props`, `Drive/Shut` |
| C86 The prover gets to its end | Positive: a measure on the client's states bounds the depth of `poll`. The full claim is false in three ways, each a theorem about all schedules: the server closes during the handshake, bytes after the server's closing alert, an application that is gone. | `Drive/Stall` |
| C87 Decryption can be switched on and off | Ghost list of what the leader was told; invariant that the client's copy is its last entry. False after the application has closed its side (`C87_ignored`). | `Drive/Control` |
| C88 The proxy forwards and records faithfully | `futures::io::copy` as a machine with phases, a history is the list of results of the calls on the sockets; invariant over histories. | `Proxy/Forward` |
| C89 What the proxy verifier accepts | PRF, key memory and verify-data checks run on the ideal machine; the run is reduced to `Genuine`, which mentions only bytes, the PRF, AES and GCM. Both directions proved. `C89_sent_tags_unchecked`: tags of sent records are not checked. | `Proxy/Props` |
| C90 No panic of the proxy verifier | From C88, C89 and the builder's panic conditions. False when the prover sends nothing. | `Proxy/Props` |
| C91 What a proxied session reveals | C89 composed with C33: the key memory that the proxy leaves is the one the proving phase starts from. | `Proxy/Props` |
| C92 Prover and verifier agree in proxy mode | The common part of the two `finalize` run on the prover's transcript, whose records are those of the verifier with plaintexts filled in. | `Proxy/Props` |
| C93 What the prover records in proxy mode | The prover's loop with the client of the proxy mode as a machine over polls, with `rustls` as an arbitrary engine that takes no more than it is given; an invariant over histories. False for data written when the server closes. | `Proxy/ClientProps` |
| C94 The proxy prover ends after the server | One poll from a reachable state in which the server has closed. False while the handshake lasts (concrete engine, every number of polls). | `Proxy/ClientProps` |
| C95 Many statements in one session, against any prover | The verifier's states between statements as a machine over calls, with the verification of C33 inside; keys stay in the memory (it only grows), so C33 applies to each output. | `Protocol/Props` |
| C96 Many statements between honest parties | Both parties' state machines joined by their messages; induction over the list of statements with the synchronisation of C62 and the growth of memory as the invariant. | `Protocol/Props` |
| C97 Agreement on the protocol and its version | Functions for the first messages of both parties, joined; case analysis over versions and decisions. | `Protocol/Props` |
| C98 Closing a split session | A transition system whose steps are the single accesses of the driver and of any number of closing threads to the shared flag and waker slot; an inductive invariant over all interleavings. | `Protocol/SessionProps` |
| C99 Taking back the channel of a session | The session as a machine over calls; induction over histories. | `Protocol/SessionProps` |
| C100 A verified presentation tells the truth about a notarized session | The verifier's histories (C95), the notary that attests to an output, and C23, C10, C54 composed. Partial: inherits the condition of C20. Protocol/Presented.lean joins it with C131: from the caller of the TLS client to the reader of the presentation; PresentedExample.lean has a session that meets all hypotheses. | `Demo/Shown`, `Protocol/EndToEnd`, `Protocol/Presented` |
| C101 Honest parties get from the session to a verified presentation | C96, C56, C54 and C23 composed. | `Protocol/EndToEnd` |
| C102 AES-GCM over the machine computes AES-GCM | The machine as a graph of calls with the value of each part for any inputs; AES with its key schedule, the keystream and AES-GCM as programs that build the graph. Invariant over histories (every block is a call with key, implicit nonce and two inputs), then evaluation of the graph. | `Gcm/Props` |
| C103 AES-GCM succeeds while resources last, and both parties build the same circuit | Refinement of the graph-building AES-GCM to the accounting of the record layer (`Aead`), which C25-C28 use, and a relation between the states of both parties over their histories. | `Gcm/Props` |
| C104 The parties' shares of a secret add up to it | The graph of OneTimePadShared of both parties, evaluated. | `Gcm/Props` |
| C105 A cipher uses the key that was set | The key schedule that is kept. Partial: false of the code once something was allocated (disagreement 28). | `Gcm/Props` |
| C106 A signature the client accepted is recorded so that a verifier accepts it | webpki's checks of paths, names and raw signatures are parameters; the choice of algorithms, the order in which they are tried, the errors and the conversion to the recorded algorithm are modelled. Partial: false of the code for keys on P-384 (disagreement 29). | `Pki/Props` |
| C107 Certificates are accepted only with a path to a root, for the name, at the time | The order of the checks, the clock, the loop over timestamps and the making of trust anchors are modelled; the theorems say what acceptance is equivalent to. | `Pki/Props` |
| C108 A verifier accepts the server of a session that the client accepted | Joins the client's model (C77-C83), the leader's (C67-C70) and a verifier's (C106, C107): the calls on the leader are those of the client. Partial: false for keys on P-384 (disagreement 29). | `ClientAuth/Identity`, `Pki/EndToEnd` |
| C109 A client key is accepted exactly if it is in a supported encoding | `ring`'s parsers are parameters; the wrapping of SEC1 keys is modelled and compared with a reader of DER written from X.690: it is read back, and no other encoding is read as the same key. | `ClientAuth/Props` |
| C110 The client shows its identity only to an authenticated server that asked, and signs only this handshake | Added to the invariant of C77-C81: what may precede a certificate, a signature and a certificate verify message. The signing keys and the choice of schemes are modelled, `ring`'s signatures are a parameter. ECDSA keys are only used with the hash of their curve's length. | `ClientAuth/Identity` |
| C111 A TLS configuration is used as it was given | The builder, the making of trust anchors, the resolver of client certificates and the client configuration as functions; with C106-C108. | `ClientAuth/Identity` |
| C112 Reading from a JavaScript channel neither loses, repeats nor reorders bytes | The adapter as a state machine with a log of what happens at both sides; the answers of the JavaScript object are arbitrary. An invariant over all histories. | `Wasm/IoProps` |
| C113 What was written to a JavaScript channel arrives, or an error is reported | The same machine; the promise of a write carries whether it will be fulfilled. Partial: the last sentence is false (disagreement 30). | `Wasm/IoProps` |
| C114 A JavaScript configuration takes effect as it was given | The builders and conversions as functions with parsers as parameters; iff-characterisations of the result, joined with the TLS client's configuration (C111). | `Wasm/BindingProps` |
| C115 The calls of a JavaScript program do what they say | The class as a state machine around the SDK's (C76), with the events of its callback; a simulation and invariants over all histories. | `Wasm/CallProps` |
| C116 A request is sent as it was asked for | The conversions of requests with hash maps as lists in any order and `hyper`'s parsers as parameters. | `Sdk/HyperProps` |
| C117 The caller gets the response that was received | The header map of `http` and the conversion of responses. Partial: false for repeated headers (disagreement 31). | `Sdk/HyperProps` |
| C118 The built-in signers of attestations sign validly, and a provider of signers holds exactly what was configured | Verif/Signing: identifiers, the map of signers as an association list, the three signers over an abstract curve whose laws (encodings are read back, signatures of a key verify) are hypotheses. Proved by induction over the calls; C118_attestation composes it with C21. | `Signing/Props` |
| C119 The default verifiers accept exactly the documented signatures | Verif/Signing: the three verifiers and their provider. `Valid` in Spec.lean is the documented meaning of each algorithm, C119_accepts proves the verifiers equal to it, C119_only_signed reduces the assumption of C22 (only the holder's headers are accepted) to unforgeability of digests and absence of collisions. | `Signing/Props` |
| C120 The output of the SDK's and the JavaScript verifier is true of the session, whatever the prover sends | Verif/Sdk/Verify.lean and Verif/Wasm/Verifier.lean: the verifier's state machine (C75) with the protocol of C95 and the compressed message of C03 inside, and the conversions to JavaScript. C120_output composes C33, C03 and C75; C120_javascript adds the roots of C114 and the certificates of C107. Sdk/Application.lean: `C120_application` joins this with C131: the output of the SDK's verifier is about the bytes that the application behind the prover wrote and read. | `Sdk/Application`, `Sdk/Verify`, `Wasm/Verifier` |
| C121 A JavaScript prover and a JavaScript verifier agree on exactly what the prover's program chose | Verif/Wasm/Verifier.lean: JavaScript's `reveal` through the SDK's configuration (C50), the honest session (C63), the compressed message and back (C02), and the verifier of C120. The hypotheses on the two VMs are those of C63. | `Wasm/Verifier` |
| C122 A plugin's handlers decide exactly what the verifier's program sees | Verif/Wasm/Plugin.lean: the values of JavaScript that `serde_wasm_bindgen` makes and reads for the types of `compute_reveal` and `Prover.reveal`. Reading after writing is the identity, type by type, also through JSON; C122_plugin composes this with C50 and C121. C122_documented_fields is the disagreement 33. | `Wasm/Plugin` |
| C123 In the proxy mode the server that the client authenticated is the one the verifier names | Verif/Proxy/Identity.lean: the configuration of rustls in the proxy mode as a function of the provider's suites and groups; rustls itself is specified by what it checks of a server (`Shown.Accepted`). C123_config computes it; C123_identity composes it with C67 (parse of the records), C89 and C106, C107 for the verifier. | `Proxy/Identity` |
| C124 The log filter lets through exactly the events that the configuration asks for | Verif/Sdk/Logging.lean: the filter as a function of target and level, with the ASCII case folding; the proof characterizes `split("::")`, `eq_ignore_ascii_case` and `find_map`. C124_span_events_ignored is the disagreement 34. | `Sdk/Logging` |
| C125 What is proven in zero knowledge about the transcript uses the keys of the session | Verif/Deap/Keys.lean: `translate_keys` on the model of the dual-execution machine (C47). C125_no_panic and C125_same_keys follow from its invariant over all sequences of calls; `SessionKeys.get` names the five keys. | `Deap/Keys` |
| C126 Each direction of the connection is encrypted under its own keys | Verif/Gcm/Layer.lean, LayerProps.lean: the three ciphers of the record layer on the machine of C102, with `set_keys`, `alloc` and the part of `alloc_session` after the PRF. C126_directions is by induction over interleaved uses of both ciphers, with the values of the graph as in C102. | `Gcm/LayerProps` |
| C127 After the connection is closed the leader, and only the leader, has the server's key | Verif/Gcm/LayerProps.lean: the leader's own AES-GCM with its states. C127_leader_has_server_key evaluates the masked graph; C127_follower_learns_nothing shows that both parties have the same graph and that for every key there is exactly one pad that explains what is decoded (one-time pad); C127_any_order is by induction over calls. | `Gcm/LayerProps` |
| C128 A response that was cut off on the network is not passed off as complete | Verif/Drive/Truncate.lean: on `verify_transcript` (C49) and the prover's future (C85). `ClosedByAlert` says what RFC 5246 asks for. C128_truncation_accepted shows that the check accepts every truncation after a record of application data; C128_committed_without_alert is a run of the prover's future that ends in the middle of a record; C128_closed_partial is the part that holds. | `Drive/Truncate` |
| C129 The transcript that the prover commits to is that of the connection its TLS client made | Verif/Client/WithLeader.lean: `Backend` makes a leader (C69) the backend of the client (C77, C78): each call of the client is a call on the leader, and the answers in the client's history are the leader's (`Faithful`, C81). Both histories are then put together: the calls that C69 finds are events of the client, whose place in the handshake C77 gives. Client/LeaderExample.lean calculates a session that meets all hypotheses. Calls are performed as a whole; client futures that are dropped in the middle of a call are left out. | `Client/WithLeader` |
| C130 The leader hands out exactly the records that are in its transcript | Verif/Session/Delivered.lean: an invariant of the leader's steps (`LKept`): the records are what was handed out followed by what is in the buffers. | `Session/Delivered` |
| C131 What the verifier accepts is what the prover's application wrote and read | Verif/Protocol/Application.lean: `Joint` is one session of client (C77, C78), leader (C69, C129), follower (C70) and verifier (C95). `C131_session` joins their theorems: the follower's records, decrypted in counter mode with the session's keys, are the leader's, which are the client's. `CounterMode` says that the encryption of the record layer is that of AES-GCM as the verifier calculates it (C103 proves it of the zkVM's translation). ApplicationExample.lean calculates a session that meets all hypotheses. Prover.lean puts the prover's future (C84) above the client: `C131_prover` is about the bytes that the application wrote to and read from the connection that `Prover::connect` gave it, in every schedule of polls; ProverExample.lean calculates such a run. | `Protocol/Application`, `Protocol/Prover` |
| C132 A connected client does not negotiate again | Verif/Client/Renegotiation.lean: by calculation on `processPlain` and `processMain`, for all states. | `Client/Renegotiation` |
| C133 An error about missing commitments names exactly the ranges | Verif/Proof/Message.lean: the texts of the errors are modelled from `Display`; that a text determines its set is proved by reading numbers from the front. The derived `Debug` of the commitment kinds is a parameter. | `Proof/Message` |
| C134 An accepted age proof shows that a date in the session is more than 18 years ago | Verif/AgeExample: the Noir program with the functions of the date library it calls, and the checks of the verifier on the output of a session and on the bytes of the proof. Parameters: the proof system with its soundness and completeness as hypotheses (`Sound`, `Complete`), SHA-256, UTF-8; the calendar of `chrono` is modelled from its documentation. Dates.lean proves that the library's order of dates is the order of the calendar; Props.lean joins the checks with C95. Partial: C134_anyone_accepted and C134_place_unchecked show where the property is false. | `AgeExample/Props` |
| C135 Bytes that were not revealed are zero in the output of a verifier | Verif/Protocol/Redacted.lean: the compressed form has only the revealed bytes, so that the decoded transcript is zero elsewhere (`deserialize_zero`); joined with C95 by induction over the history. Used by C134 for the check of the host. | `Protocol/Redacted` |
| C136 The transcript that an example verifier returns is true of a session with the expected server | Verif/Demo: the verifiers of crates/examples/basic and proxy from the proposal to the returned transcript; the commitment protocol for an accepted configuration is a function that leaves the verifier with keys (`KeepsKeys`; C131 is about it). C95, C135 and C96 applied. The presentation verifier of crates/examples/attestation is in Demo/Shown.lean as a corollary of C100 (`C100_shown_partial`: each byte shown is an X or the session's byte). | `Demo/Props` |
| C137 The kind of an error says who caused it | Verif/Protocol/Errors: the calls of Protocol/Model again, returning the error (kind, message, text of the source) of each site; the failures of the channel, the setup and the execution of the VM are inputs. Case analysis of each call against a specification of the kinds (`Means`), and a refinement: without the errors these are the calls of C95 and C96 (`C137_same_calls`, `C137_same_prove`). Proxy/Errors.lean gives the kinds of the errors of the verifier's `run` in proxy mode. The errors of `connect` and of `run` in MPC mode are not covered. | `Protocol/ErrorsProps`, `Proxy/Errors` |
| C138 A program in JavaScript is told why it was rejected | Verif/Sdk/Told: `setup` of both sides and the error of `reveal` with their texts, on top of the calls of C137; the first limit exceeded is specified as a position in the list of limits (`FirstExceeded`). That the texts can be told apart is a lemma on prefixes of strings. The prover's errors before the proposal is sent (its own configuration) are in C76 and not here. | `Sdk/Told` |
| C139 Names of servers as keys | Verif/Client/Name: the three functions of crates/tls-core/src/dns.rs. That a valid DNS name has at most 253 bytes is an assumption on the dependency (`ShortNames`). Injectivity of length-prefixed bytes. `C139_addresses_not_told`: for IP addresses, which cannot be made from outside, the comment on `encode` would be false. | `Client/Name` |
| C140 A prover that waits is woken when it can go on | Verif/Drive/Wake.lean: `Driver.wakes` follows the calls of `wake_by_ref` in a poll of the model of C84. Invariant: while the connection is at hand, its deframer has not failed, so that it has room (C37) and takes a byte. Verif/Proxy/Wake.lean does the same for the model of C93. What the socket, the pipes and the futures of the leader do with the waker of a poll in which they were pending is their contract, and not part of the model. `C140_choice_not_noticed` and `C140_polled_in_vain` are disagreements. | `Drive/Wake`, `Proxy/Wake` |
| C141 In proxy mode the closing alert follows everything the application wrote | Verif/Proxy/Alert.lean: the connection of the model of C93, which is any connection, is instrumented with a list of the calls that send something. `C141_logged`: the instrument changes nothing. Invariants over all histories: what was written is what is in the list and what waits; the alert is last; the state of the client says whether it was asked for. `C141_sent`: a poll in a given state, step by step. | `Proxy/Alert` |
| C142 The error of the HTTP committer names the part that does not fit | Verif/Sdk/CommitError.lean: the committer of C74 with the errors of crates/formats/src/http/commit.rs (kind, message, index, source; the error of the JSON committer is replaced by its source). The specification `Named` gives the positions each message stands for. `C142_error` by induction over the messages and headers; `C142_entire`: the entire message is committed to first, so the precise texts appear only for messages whose parts stick out of them; `C142_source`: forgetting the labels gives the committer of C74; `C142_text`: the texts are different, by their 21st and last characters. `set_index` is called nowhere in the crate, so `index()` is `None` in every error (part of `C142_error`). | `Sdk/CommitError` |

## Trusted base

* Lean 4.33.0's kernel, and Mathlib's definitions where a statement mentions them (lists, `ZMod`, Weierstrass curves,
  commutative rings).
* Axioms: `propext`, `Classical.choice`, `Quot.sound`, at most. `AXIOMS.md` lists them for every property theorem. The
  project adds no axiom, uses no `sorry`, no `native_decide` and no `bv_decide`.
* The transcription of Rust into Lean. Every definition cites its lines; simplifications are in the comment.
* The dependencies' documented behaviour, as far as a model replaces it by data or a parameter:
  - `rangeset`: sets of positions as canonical sorted lists of disjoint, non-adjacent, non-empty ranges.
  - `rs_merkle`: its layer algorithm, with the position check as a flag (`checked`).
  - `bcs`: from its specification. `serde` derives: field by field.
  - `mpz` VMs: an ideal machine, that computes circuits on assigned inputs, keeps visibility, and decodes what was asked;
    for DEAP the MPC machine is arbitrary. Share conversions and oblivious transfer are ideal, with arbitrary shares.
  - SHA-256's compression function, AES, hash functions, signature and certificate checks: arbitrary functions.
  - P-256: the group of points of the curve over a prime field (Mathlib).
  - `rustls`: any state machine that takes no more bytes than it is offered.
  - `futures::io::copy`: a loop that fills an empty buffer, writes it out, and flushes at the end of the reader.
  - `spansy`: its output, a message with spans. `regex`: any function from bytes to ranges.
  - `HashSet`/`HashMap` order: an arbitrary permutation. Binary search: any function meeting the documentation.

## What is modelled

| crate | modelled | not modelled |
|---|---|---|
| core | transcripts, partial transcripts, commitments, proofs, configs (prove, MPC, TLS client), hash, Merkle tree, TLS transcript and builder, handshake data, certificate verification's decision logic | display, fixtures, webpki internals |
| attestation | all; the elliptic curves and Keccak-256 are parameters | fixtures |
| formats | default HTTP and JSON committers | the parsers re-exported from `spansy` |
| tls-core | codec, enums, deframer, fragmenter, joiner, handshake messages, PRF, checks of certificates, timestamps and signatures | cipher suite tables, webpki and ring, TLS 1.3 messages' use |
| mpc-tls | leader, follower, record layer, AEAD (also as calls on the machine, with one-time-pad shares), GHASH, which keys the ciphers get, the decoding of the server key, configuration, the TLS client (`client/`: configuration, signing keys, connection, buffers, hello, all TLS 1.2 states, alerts, joiner) | secret key logging, session resumption data, message framing of the MPC channel |
| components | cipher (AES-128's key schedule and blocks as calls on the machine, keystream), hmac-sha256, key-exchange, deap | the circuits' gates (their function is given), mocks |
| tlsn | prove/verify, authentication of transcripts, tag checks, range maps, commitments, the prover's poll loop with its future, client and control (MPC mode), proxy mode with its TLS client and loop, where `rustls` is a parameter; the sequence of statements of a session, the agreement on the commitment configuration, splitting and closing a session, the errors of these calls | session multiplexer, `rustls`, locks and stored wakers of the pipes |
| sdk-core | handlers, reveal, state machines of prover and verifier, configuration builders, HTTP requests and responses, reads of the HTTP client, the log filter, the reads of `HyperIo` | its writes, which it delegates |
| wasm | the adapter of JavaScript channels, the classes of the prover and of the verifier with their conversions, the verifier's configuration, `compute_reveal`, the log filter | the format of log lines, the reading of JavaScript values by `serde` |
| examples-zk | the verifier from the request of the prover on, the Noir program with the date functions it calls (C134) | the prover's choice of ranges, the proof system |
| examples | the verifiers of basic, proxy and attestation (C136, C100), the notary of attestation (C100) | the provers; printing |
| harness, fixtures | | all (test code) |

## Disagreements between the code and the property one would expect

Each is a theorem with a concrete witness; the positive part that does hold is a theorem of the same property.

1. **C20** A prover that chooses its certificate commitment can present contents the notary never signed
   (`C20_forgery`, `C20_forged_presentation`): leaves and inner nodes of the Merkle tree are not separated and the
   number of fields is not signed.
2. **C25** `Request::validate` does not connect the body to the signed header (`C25_body_not_checked`).
3. **C14** Revealed data covered by commitments of two kinds is refused (`C14_cross_kind_incomplete`).
4. **C17** A record limit given by the user leaves no room for the protocol's own records
   (`C17_explicit_records_not_reserved`).
5. **C17** Limits near the word size wrap (`C17_limit_wraps`). **C52** Lengths are truncated to 32 bits.
6. **C34** A commit request outside a fully revealed direction crashes the verifier (`C34_crash`). **C64** The flag asking
   for the server's identity is ignored (`C64_identity_may_be_missing`).
7. **C28** The follower's count of bytes wraps (`C28_limit_wraps`); small records exhaust the keystream
   (`C28_small_records_exhaust`). **C29** A failed flush loses records, an empty record can never be encrypted.
8. **C57** Records other than application data that wait at `commit` are not authenticated. **C60** The follower takes the
   content type from the leader (`C60_type_alias`). **C27** Received nonces may repeat.
9. **C41** The session hash covers a session ticket (`C41_session_hash_with_ticket`). **C65** Hellos without extensions are
   rejected.
10. **C42** Empty record lists panic; surplus application data is ignored. **C36** Byte strings too long for their prefix
    are silently cut. **C37** Records of SSL 2.0 and DTLS versions pass the deframer.
11. **C43** A server hello before the client random, or a close before any record, makes the follower panic
    (`C43_hello_first_panics`, `C43_panics`). **C45** Share points with equal x coordinates make a party panic.
12. **C44** In reduced mode a handshake hash set too early makes the flush loop run for ever
    (`C44_reduced_loop_forever`); the two modes accept different session hash lengths.
13. **C51** `hideValue` reveals array elements, and members named by "" or ".name" paths. **C50** Regex flags are ignored, a
    regex handler without a pattern selects everything.
14. **C73** Openings do not follow the order of the request; duplicates are dropped. **C74** Array elements and white space
    around a JSON body cannot be withheld or shown on their own.
15. **C75** The SDK verifier's record limit does not bind a prover that states none; no limit refuses all that state one.
16. **C76** A receive limit below 32 bytes is accepted and can never be used; a call at the wrong time loses the session.
17. **C08** `union_subsequence` overwrites authenticated bytes. **C47** With empty allocations the memory map depends on
    which of equal keys the search finds.
18. **C80** The documentation of `process` promises the same error for ever; an error of the leader or of a corrupt record is
    followed by `HandshakeNotComplete` (`C80_same_error_false`). `start` returns success when the handshake has failed; the
    error comes from the next `process`.
19. **C82** A close alert that arrives unencrypted during the handshake counts after it (`C82_unauthenticated`). The prover then
    stops reading.
20. **C86** A server that closes the connection during the handshake makes the prover's `poll` call itself without end
    (`C86_eof_in_handshake`): the stack overflows. A byte after the server's closing alert (`C86_trailing_bytes`), or an
    application that drops its connection while data waits (`C86_application_gone`), keeps the future from ever ending.
21. **C87** Switching decryption is ignored once the application has closed its side (`C87_ignored`).
22. **C85** `is_terminated` stays false after the future has returned an error (`C85_terminated`).
23. **C90** A prover that closes its connection without sending a byte makes the proxy verifier panic
    (`C90_panics_iff_partial`).
24. **C89** In proxy mode the tags of sent records are never checked (`C89_sent_tags_unchecked`): a record that the server
    rejects counts as sent data. The four bytes before the verify data in the finished messages are not checked either.
25. **C93** In proxy mode, data that the application writes just before the server closes is sent, and recorded by the
    verifier, after the prover has taken its record of the traffic (`C93_late_data`). Data of the server that the
    application has not been given at that moment is lost, and the prover fails (`C93_unread_data`, `C93_unread_fails`).
26. **C94** A server that closes during the handshake makes the proxy prover wait for ever (`C94_eof_in_handshake`).
27. **C99** `is_closed` is false again once the channel of a closed session was taken (`C99_is_closed`).
28. **C105** `Aes128::set_key` after the first allocation has no effect: the key schedule of the first key is kept
    (`C105_later_keys_ignored`, `C105_set_key_has_no_effect`). In the code of the repository every cipher gets one key.
29. **C106, C108** `SignatureAlgorithm::from_alg` (tls-core/src/verify.rs) compares the identifier of the signature algorithm only, which
    does not name the curve, so in the MPC mode a signature by a key on P-384 is recorded as one by a key on P-256, and every verifier
    rejects it: the identity of a server with such a key cannot be proved (`C106_p384_rejected`, `C108_p384_rejected`). The proxy mode
    reads the curve from the certificate and is not affected (`C106_proxy_recorded`).
30. **C113** The adapter of JavaScript channels drops the promises of `write` and `close` (crates/wasm/src/io.rs:228-270): writes, flushes
    and closes report success though the promise is open or rejected, and no operation ever reports it (`C113_blind`). One
    lost write leaves a gap in the stream (`C113_lost`).
31. **C117** `send_request` (crates/sdk-core/src/prover.rs:517-526) lists the response's headers with `HeaderMap::into_iter`, which gives a
    name with its first value only: further values of the name, as of `set-cookie`, get an empty name (`C117_repeated`).
32. **C03** Deserializing a partial transcript allocates two vectors of the lengths the peer states
   (crates/core/src/transcript.rs:222-223) before anything is compared with the session. A stated length beyond `isize::MAX`
   passes the validation and panics, also with no data at all (`C03_deserialize_panics`); the prover's proof request thus
   panics the verifier. Smaller lengths ask for that much memory, which the model leaves out.
33. **C122** The documentation of JavaScript's `compute_reveal` (crates/wasm/src/handler.rs:22-25) promises the fields `sentRanges`, `recvRanges`,
    `sentRangesWithHandlers` and `recvRangesWithHandlers`; no output has any of them (`C122_documented_fields`). A program that
    follows it passes `undefined` to `Prover.reveal`.
34. **C124** `LoggingConfig::span_events` is documented as "which span lifecycle events to log" (crates/sdk-core/src/logging.rs:78-79,
    crates/wasm/src/log.rs:41-42) and is converted, but nothing reads it: no configuration changes what is logged about spans
    (`C124_span_events_ignored`).
35. **C128** `verify_transcript` is documented to check "that both directions of the connection were closed properly"
    (crates/mpc-tls/src/utils.rs:102-107), but a direction that ends with application data passes (133-163), and the prover's future takes
    the end of the socket for the end of the response. Who can cut the network connection can cut off a response after any record:
    prover and verifier both accept what is left, and an application that does not check lengths itself takes it for the whole
    (`C128_truncation_accepted`, `C128_committed_without_alert`).
36. **C134** The verifier of the age example reads the year of the proof date as a signed number
    (crates/examples-zk/verifier.rs:195), the circuit has an unsigned one (`year: u32` of the date library). With the year
    4294967295 the circuit says that everybody was 18 by then, and the verifier takes it for the year -1, which is not in
    the future: a prover of any age is accepted (`C134_anyone_accepted`). It also does not check which bytes of the
    response were committed: any date there does (`C134_place_unchecked`). A prover who commits with another hash
    algorithm makes it panic (`C134_other_algorithm_panics`; the assertion at crates/examples-zk/verifier.rs:127).
37. **C137** `Error::msg` is documented to return "a rejection message provided by a verifier" (crates/tlsn/src/error.rs:14-15); of a
    rejection it always returns the same text, and the reason is only in the source (`C137_msg_is_not_the_reason`).
    `is_internal` is documented as "originated from an internal bug" (79), but all failed verifications of what a prover
    sent are of this kind (`C137_internal_is_not_a_bug`): a verifier cannot tell a lying prover from a bug by the kind.
    And in proxy mode a finished message that is not the right one is a user error of the verifier (crates/tlsn/src/proxy.rs:296),
    although nobody rejected anything (`C137_proxy_finished`).
38. **C140** `ProverControl::enable_decryption` only stores the choice: a prover that waits is not woken, although it could now give the
    application data that has arrived (`C140_choice_not_noticed`). While the client waits for the verifier, every poll wakes its
    own task as long as bytes of the application or of the server are waiting (`C140_polled_in_vain`). In proxy
    mode, if the application writes more than the connection buffers at once (`rustls` has a limit), the rest stays in the pipe after
    a poll that does not wake its task, although the connection would take more (`C140_proxy_left`); unless the pipe wakes a task
    that found bytes in it, the prover then waits for the server, and the server for the rest of the request.

## Partial properties

| id | what is missing |
|---|---|
| C17 | explicit record counts and limits near the word size, where the property is false |
| C105 | keys that are set after the first allocation; for these the property is false (`C105_set_key_has_no_effect`) |
| C106 | keys on P-384, for which the property is false (`C106_p384_rejected`) |
| C108 | keys on P-384, for which the property is false (`C108_p384_rejected`) |
| C03 | stated lengths beyond `isize::MAX`, for which deserialization panics (`C03_deserialize_panics`) |
| C113 | that a flush waits for the writes, and that a rejected promise is reported; both are false (`C113_lost`, `C113_blind`) |
| C117 | the names of repeated headers, for which the property is false (`C117_repeated`) |
| C100 | presentations whose proof states another number of fields than were signed; for these the property is false (`C20_forged_presentation`) |
| C20 | the property is false; the theorem adds the length condition the code does not check |
| C28 | lengths of 2^63 and more, where the property is false |
| C41 | the session hash when the server sends a ticket, where the property is false |
| C51 | array elements and paths "" and ".name", where the property is false |
| C60 | record types that are aliases of application data, where the property is false |
| C73 | the order of the openings, where the property is false |
| C86 | a server that closes during the handshake, bytes after its closing alert, an application that is gone: the property is false |
| C90 | a prover that sends nothing, where the property is false |
| C93 | bytes sent after the server closed, where the property is false |
| C94 | a server that closes during the handshake, where the property is false |
| C87 | choices made after the application has closed its side, where the property is false |
| C128 | directions that end with application data, for which the property is false (`C128_truncation_accepted`) |
| C134 | proof dates with a year from 2^31 on, and that the committed bytes are the date of birth, for which the property is false (`C134_anyone_accepted`, `C134_place_unchecked`) |
| C140 | that bytes of the application which are left wake the task (`C140_proxy_left`; it depends on the pipes), and choices to decrypt, which do not (`C140_choice_not_noticed`) |
| C80 | which error is returned after a failure of the leader or a corrupt record, where the property is false |
