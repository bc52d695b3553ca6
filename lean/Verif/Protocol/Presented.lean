import Verif.Protocol.Application
import Verif.Protocol.EndToEnd

/-! # From the caller of the TLS client to the reader of a presentation -/

namespace Tlsn.Protocol

/-- The session that the notary verified is that of the client, the leader and the follower. -/
structure NotaryRun.Of (s : NotaryRun) (j : Joint) : Prop where
  valid : j.Valid
  keys : j.HasKeys s.keys
  view : s.env.tls = j.view
  aes : ∀ ck civ sk siv, CounterMode s.env.aes (j.B.D.aead ck civ sk siv).client ck civ ∧ CounterMode s.env.aes (j.B.D.aead ck civ sk siv).server sk siv

/-- **C100** (partial) A presentation that verifies under the notary's key belongs to one of the sessions of the notary.  If this session is that of a
TLS client on an MPC leader, then each authenticated byte of the sent data that the presentation shows is the byte
that the client's caller wrote at this place, each authenticated byte of the received data is the one that the caller has read
there, as far as it has read, and each name that it shows is one for which a certificate chain and a signature of the key of a handshake verify that
the client had checked for its own server name; or a collision of a hash function exists.  The session does not depend on the
choice of the client: it is found from the presentation.

Missing, as in `C100_presentation_partial`: presentations whose proof states another number of fields than were signed. -/
theorem C100_application_partial (checked : Bool) (p : Presentation) (c v : CryptoProvider) (k : VerifyingKey)
    (sessions : List NotaryRun) (out : PresentationOutput)
    (hp : ProviderOk c.hash) (hhash : v.hash = c.hash) (hdom : v.dom = c.dom) (hd : DomainsOk c.dom)
    (hout : ∀ alg h, c.hash alg = some h → ∃ N, OutLen N h)
    (hcirc : ∀ s ∈ sessions, SameHashes s.env.hc c.hash)
    (hk : OnlySigned v k (sessions.map (·.attestation.header)))
    (hs : ∀ s ∈ sessions, s.Valid c)
    (hver : p.attestation.header.version < 2 ^ 32) (hrep : out.attestation.body.Representable)
    (hn : ∀ s ∈ sessions, s.attestation.header = p.attestation.header →
      p.attestation.body.proof.leafCount = s.attestation.body.fieldCount)
    (hin : checked = true ∨ ∀ f ∈ out.attestation.body.fields, f.1 < p.attestation.body.proof.leafCount)
    (hv : p.verify checked v = .ok out) (hkey : out.attestation.body.verifyingKey.data = k) :
    (∃ s ∈ sessions, ∀ j : Joint, s.Of j →
      (∀ pt, out.transcript = some pt →
        (∀ x ∈ pt.sentAuthed, x < pt.sent.length → pt.sent[x]? = (Client.written j.results)[x]?) ∧
        (∀ x ∈ pt.receivedAuthed, x < (Client.readOut j.results).length → pt.received[x]? = (Client.readOut j.results)[x]?) ∧
        pt.sent.length ≤ (Client.written j.results).length) ∧
      ∃ (d : Client.Session) (hs : Mpc.HsData) (w : Mpc.World), d.ServerOk j.cfg ∧ d.upToServerFinished j.cfg <+: Client.significant j.log ∧
        (Mpc.LCall.prepareEncryption hs, w) ∈ j.B.all j.log j.w ∧ out.connectionInfo.time = w.now ∧
        ∀ name, out.serverName = some name → ∃ hsd : HandshakeData, hsd.verify v.cert w.now ⟨d.kx.publicKey⟩ name = .ok ()) ∨
    ∃ alg h, v.hash alg = some h ∧ Collision h := by
  refine (C100_presentation_partial checked p c v k sessions out hp hhash hdom hd hout hcirc hk hs hver hrep hn hin hv hkey).imp_left ?_
  rintro ⟨s, hmem, htime, -, htr, hname⟩
  refine ⟨s, hmem, fun j hj => ?_⟩
  obtain ⟨-, h1, h2, d, hok, hup, hb, hs', w', hp', ht⟩ := C131_session j hj.valid s.env.aes hj.aes s.keys hj.keys
  rw [← hj.view] at h1 h2 hb ht
  refine ⟨fun pt hpt => ?_, d, hs', w', hok, hup, hp', by rw [htime, ht], fun name hn => ?_⟩
  · obtain ⟨a, l1, l2⟩ := htr pt hpt
    refine ⟨fun x hx hlt => ?_, fun x hx hlt => ?_, ?_⟩
    · have := a .sent x hx
      rw [show pt.sent[x]? = _ from this]
      rw [l1] at hlt
      exact prefix_get h1 (hlt.trans_le (Nat.mod_le _ _))
    · have := a .received x hx
      rw [show pt.received[x]? = _ from this]
      exact (prefix_get h2 hlt).symm
    · rw [l1]
      exact (Nat.mod_le _ _).trans h1.length_le
  · obtain ⟨hsd, key, g1, g2⟩ := hname name hn
    rw [hb] at g1
    cases g1
    exact ⟨hsd, by rw [← ht]; exact g2⟩

end Tlsn.Protocol
