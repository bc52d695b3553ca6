import Verif.Pki.Props
import Verif.Client.Props
import Verif.Session.LeaderProps

/-! # A session that the client accepted, before a verifier: C108 -/

namespace Tlsn.Pki

open Client (ClientCfg Conn Ev eventsOf askedPrepare askedRandom)
open Mpc (LCall Leader Limits)

/-- The client checks certificates and signatures with the trust anchors and without certificate transparency, as
crates/mpc-tls/src/client/config.rs:128-139 has it, and offers the schemes of which it accepts signatures. -/
structure Configured (P : WebPki) (anchors : List Bytes) (cfg : ClientCfg) : Prop where
  cert : ∀ leaf is name scts ocsp now, cfg.verifyCert leaf is name scts ocsp now = .ok () ↔
    P.clientVerifyCert anchors none leaf is name scts (now : Nat) = .ok ()
  sig : ∀ message cert dss, cfg.verifySig message cert dss = .ok () ↔ P.verifySignedStruct message cert dss.scheme dss.sig = .ok ()
  schemes : cfg.verifySchemes = verificationSchemes

/-- What the client tells the leader of the server, and what the leader gets: crates/mpc-tls/src/client/tls12.rs:676-692. -/
structure SameData (d : Client.HandshakeData) (hs : Mpc.HsData) : Prop where
  random : hs.random.toList = d.random
  group : hs.key.group = .secp256r1 ↔ d.key.group = 0x0017
  key : hs.key.key = d.key.payload
  chain : hs.chain = d.chain
  params : hs.kxParams = d.kxParams
  scheme : hs.scheme = d.sig.scheme
  sig : hs.sig = d.sig.sig

/-- The calls on the leader are those of the client: its random is the one that the client sent, and it is told what the client
found out about the server. -/
structure Driven (log : List Ev) (lc : List (LCall × Mpc.World)) : Prop where
  random : ∀ cr otp w, (LCall.alloc cr otp, w) ∈ lc → Ev.random (.ok cr.toList) ∈ log
  prepare : ∀ hs w, (LCall.prepareEncryption hs, w) ∈ lc → ∃ d ∈ eventsOf askedPrepare log, SameData d hs

/-- crates/tlsn/src/prover.rs:544-554: the handshake data that a prover shows to prove the server's identity. -/
def handshakeOf (t : TlsTranscript) : Option HandshakeData :=
  match t.serverCertChain, t.serverSignature with
  | some certs, some s => some ⟨certs, s.alg, s.sig, t.certificateBinding.clientRandom, t.certificateBinding.serverRandom,
      t.certificateBinding.serverEphemeralKey⟩
  | _, _ => none

theorem length_le_one_eq {α β : Type} {f : α → Option β} {l : List α} (h : (l.filterMap f).length ≤ 1) {a b : α} (ha : a ∈ l) (hb : b ∈ l)
    (fa : (f a).isSome) (fb : (f b).isSome) : a = b := by
  induction l with
  | nil => cases ha
  | cons x xs ih =>
    have none_of : (f x).isSome → ∀ y ∈ xs, (f y).isSome → False := by
      intro hx y hy hf
      obtain ⟨v, hv⟩ := Option.isSome_iff_exists.1 hx
      obtain ⟨u, hu⟩ := Option.isSome_iff_exists.1 hf
      rw [List.filterMap_cons_some hv, List.length_cons] at h
      have : u ∈ xs.filterMap f := List.mem_filterMap.2 ⟨y, hy, hu⟩
      have := List.length_pos_of_mem this
      omega
    rcases List.mem_cons.1 ha with rfl | ha'
    · rcases List.mem_cons.1 hb with rfl | hb'
      · rfl
      · exact (none_of fa b hb' fb).elim
    · rcases List.mem_cons.1 hb with rfl | hb'
      · exact (none_of fb a ha' fa).elim
      · refine ih ?_ ha' hb'
        cases hx : f x with
        | none => rwa [List.filterMap_cons_none hx] at h
        | some v => exact (none_of (by simp [hx]) a ha' fa).elim

/-- The parameters that were signed are those that a verifier encodes again. -/
theorem params_kx (d : Client.Session) (hg : d.kx.namedGroup = 0x0017) :
    d.params = (⟨d.kx.publicKey⟩ : ServerEphemKey).kxParams := by
  unfold Client.Session.params
  rw [hg]
  rfl

/-- What is known of a transcript of a session in which the client accepted the server. -/
theorem session_accepted (P : WebPki) (anchors : List Bytes) (cfg : ClientCfg) (hcfg : Configured P anchors cfg)
    (W : Client.World) (c0 : Conn) (h0 : Conn.new cfg = .ok c0) (calls : List Client.Call)
    (D : Mpc.Deps) (hD : ∀ cert m s g alg, D.sigAlg cert m s g = some alg ↔ P.determineAlg cert m s g = .ok alg) (lim : Limits)
    (sk : Nat) (vm : Hmac.Vm) (hvm : vm.Fresh) (defer : Bool) (lc : List (LCall × Mpc.World)) (hl : lc.length ≤ 2 ^ 64)
    (honce : Mpc.VdOnce lc) (hfine : ∀ r ∈ ((Leader.new sk vm defer).run D lim lc).2, r.2.Fine)
    (hdriven : Driven (c0.run cfg W calls).1.io.common.log lc) (ms : List Mpc.Msg) (t : TlsTranscript)
    (ht : (ms, .finished (some t)) ∈ ((Leader.new sk vm defer).run D lim lc).2) :
    ∃ leaf is alg sg, t.serverCertChain = some (leaf :: is) ∧ t.serverSignature = some ⟨alg, sg⟩ ∧ ∃ scheme,
      P.determineAlg leaf (t.certificateBinding.clientRandom.toList ++ (t.certificateBinding.serverRandom.toList ++
        t.certificateBinding.serverEphemeralKey.kxParams)) scheme sg = .ok alg ∧
      P.nameOk leaf cfg.serverName = true ∧ ∃ secs, P.path anchors leaf is secs = true := by
  obtain ⟨pre, wc, post, cr, otp, pk, hs, w, hc, hsv, p0, p1, secret, cert, alg, e, -, hcalls, hmem, hgroup, -, -, -, hbind, hcert, hchain,
    halg, hsig, -⟩ := C69_transcript D lim sk vm hvm defer lc hl honce hfine ms t ht
  have hpre : ∀ x ∈ pre, x ∈ lc := fun x hx => by rw [e]; exact List.mem_append_left _ hx
  obtain ⟨d0, hd0, hsame⟩ := hdriven.prepare hs w (hpre _ hmem)
  obtain ⟨hr, -, -, -, -, -, hprep, -⟩ := Client.C81_once W c0 h0 calls
  obtain ⟨d, hok, hpref, rfl⟩ := hprep d0 hd0
  have hcr : d.random = cr.toList := by
    have h1 : LCall.alloc cr otp ∈ Mpc.handshakeCalls pre := by
      rcases hcalls with h | h <;> rw [h] <;> simp
    have h2 : ∃ w', (LCall.alloc cr otp, w') ∈ pre := by
      obtain ⟨⟨x, w'⟩, h5, h6⟩ := List.mem_map.1 (List.mem_of_mem_filter h1)
      exact ⟨w', by rw [← show x = LCall.alloc cr otp from h6]; exact h5⟩
    obtain ⟨w', h2⟩ := h2
    have h3 := hdriven.random cr otp w' (hpre _ h2)
    have h4 : Ev.random (.ok d.random) ∈ (c0.run cfg W calls).1.io.common.log := by
      have : Ev.random (.ok d.random) ∈ d.upToCcs cfg := by
        simp [Client.Session.upToCcs, Client.Session.upToClientKx, Client.Session.upToClientCert, Client.Session.upToDone,
          Client.Session.upToRequest, Client.Session.upToKx, Client.Session.upToStatus, Client.Session.upToCertificate,
          Client.Session.upToServerHello, Client.Session.hello]
      exact List.mem_of_mem_filter (hpref.subset this)
    have := length_le_one_eq hr h4 h3 rfl rfl
    injection this with this
    injection this
  obtain ⟨⟨leaf, is, k1, k2, k3⟩, -⟩ := hok.verified
  have hch : hs.chain = leaf :: is := hsame.chain.trans k1
  rw [hch, List.head?_cons] at hcert
  obtain rfl : leaf = cert := Option.some.inj hcert
  have hkx : hs.kxParams = (⟨hs.key.key⟩ : ServerEphemKey).kxParams := by
    rw [hsame.params, hsame.key]
    exact params_kx d (hsame.group.1 hgroup)
  obtain ⟨secs, -, -, ⟨-, c2, c3⟩, -⟩ := (C107_client P anchors none leaf is cfg.serverName _ _).1 ((hcfg.cert _ _ _ _ _ _).1 k2)
  refine ⟨leaf, is, alg, hs.sig, by rw [hchain, hch], hsig, hs.scheme, ?_, c3, secs, c2⟩
  have := (hD _ _ _ _ _).1 halg
  rw [hbind]
  rw [hkx, List.append_assoc] at this
  exact this

/-- C108, in part: for every session with a leader that returns a transcript, in which the client accepted the server's certificates
and signature, a verifier with the same roots and name accepts the handshake data of the transcript, if the certificates are still
valid when the leader takes the time and the server's key is not on the curve P-384.  Missing: keys on P-384, for which
it is false (`C108_p384_rejected`). -/
theorem C108_verifier_accepts_partial (P : WebPki) (anchors : List Bytes) (cfg : ClientCfg) (hcfg : Configured P anchors cfg)
    (W : Client.World) (c0 : Conn) (h0 : Conn.new cfg = .ok c0) (calls : List Client.Call)
    (D : Mpc.Deps) (hD : ∀ cert m s g alg, D.sigAlg cert m s g = some alg ↔ P.determineAlg cert m s g = .ok alg) (lim : Limits)
    (sk : Nat) (vm : Hmac.Vm) (hvm : vm.Fresh) (defer : Bool) (lc : List (LCall × Mpc.World)) (hl : lc.length ≤ 2 ^ 64)
    (honce : Mpc.VdOnce lc) (hfine : ∀ r ∈ ((Leader.new sk vm defer).run D lim lc).2, r.2.Fine)
    (hdriven : Driven (c0.run cfg W calls).1.io.common.log lc) (ms : List Mpc.Msg) (t : TlsTranscript)
    (ht : (ms, .finished (some t)) ∈ ((Leader.new sk vm defer).run D lim lc).2)
    (hstill : ∀ leaf is, t.serverCertChain = some (leaf :: is) → P.path anchors leaf is t.time = true)
    (hkey : ∀ leaf is, t.serverCertChain = some (leaf :: is) → P.keyAlg leaf ≠ some .p384) :
    ∃ d, handshakeOf t = some d ∧
      d.verify (P.certVerifier anchors) t.time t.certificateBinding.serverEphemeralKey cfg.serverName = .ok () := by
  obtain ⟨leaf, is, alg, sg, h1, h2, scheme, h3, h4, -⟩ :=
    session_accepted P anchors cfg hcfg W c0 h0 calls D hD lim sk vm hvm defer lc hl honce hfine hdriven ms t ht
  refine ⟨_, show handshakeOf t = some ⟨leaf :: is, alg, sg, t.certificateBinding.clientRandom, t.certificateBinding.serverRandom,
    t.certificateBinding.serverEphemeralKey⟩ by simp only [handshakeOf, h1, h2], ?_⟩
  rw [C107_verifier]
  refine ⟨rfl, leaf, is, rfl, ⟨(determine_ok.1 h3).1, hstill leaf is h1, h4⟩, ?_⟩
  have := C106_recorded_partial P anchors leaf _ scheme sg alg h3 (hkey leaf is h1)
  rw [← verifySignature_ok]
  revert this
  simp only [WebPki.certVerifier]
  cases P.verifySignature leaf (ringAlg alg) _ sg <;> simp

/-- C108 is false of the code for servers with a key on P-384: the handshake data of every such session is rejected by every verifier
with the same roots and name, although another algorithm would have made it acceptable. -/
theorem C108_p384_rejected (P : WebPki) (anchors : List Bytes) (cfg : ClientCfg) (hcfg : Configured P anchors cfg)
    (W : Client.World) (c0 : Conn) (h0 : Conn.new cfg = .ok c0) (calls : List Client.Call)
    (D : Mpc.Deps) (hD : ∀ cert m s g alg, D.sigAlg cert m s g = some alg ↔ P.determineAlg cert m s g = .ok alg) (lim : Limits)
    (sk : Nat) (vm : Hmac.Vm) (hvm : vm.Fresh) (defer : Bool) (lc : List (LCall × Mpc.World)) (hl : lc.length ≤ 2 ^ 64)
    (honce : Mpc.VdOnce lc) (hfine : ∀ r ∈ ((Leader.new sk vm defer).run D lim lc).2, r.2.Fine)
    (hdriven : Driven (c0.run cfg W calls).1.io.common.log lc) (ms : List Mpc.Msg) (t : TlsTranscript)
    (ht : (ms, .finished (some t)) ∈ ((Leader.new sk vm defer).run D lim lc).2)
    (hkey : ∀ leaf is, t.serverCertChain = some (leaf :: is) → P.keyAlg leaf = some .p384)
    (hstill : ∀ leaf is, t.serverCertChain = some (leaf :: is) → P.path anchors leaf is t.time = true) :
    ∃ d, handshakeOf t = some d ∧
      d.verify (P.certVerifier anchors) t.time t.certificateBinding.serverEphemeralKey cfg.serverName = .error .signature ∧
      ∃ alg, { d with sigAlg := alg }.verify (P.certVerifier anchors) t.time t.certificateBinding.serverEphemeralKey cfg.serverName = .ok () := by
  obtain ⟨leaf, is, alg, sg, h1, h2, scheme, h3, h4, -⟩ :=
    session_accepted P anchors cfg hcfg W c0 h0 calls D hD lim sk vm hvm defer lc hl honce hfine hdriven ms t ht
  obtain ⟨hno, other, hyes⟩ := C106_p384_rejected P anchors leaf _ scheme sg alg h3 (hkey leaf is h1)
  have hp := (determine_ok.1 h3).1
  have hcert : (P.certVerifier anchors).verifyServerCert leaf is cfg.serverName t.time = true := by
    simp [CertVerifier.verifyServerCert, WebPki.certVerifier, hp, hstill leaf is h1, h4]
  have hp' : (P.certVerifier anchors).parses leaf = true := hp
  refine ⟨_, show handshakeOf t = some ⟨leaf :: is, alg, sg, t.certificateBinding.clientRandom, t.certificateBinding.serverRandom,
    t.certificateBinding.serverEphemeralKey⟩ by simp only [handshakeOf, h1, h2], ?_, other, ?_⟩
  · simp [HandshakeData.verify, hcert, hp', hno]
  · simp [HandshakeData.verify, hcert, hp', hyes]

end Tlsn.Pki
