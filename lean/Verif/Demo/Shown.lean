import Verif.Demo.Props

/-! # What the example shows of a presentation -/

namespace Tlsn.Demo

/-- The bytes shown are those of the data or an `X`. -/
def BytesOrX (data shown : Bytes) : Prop := ∀ (i : Nat) (b : Byte), shown[i]? = some b → b = 88 ∨ data[i]? = some b

/-- **C100** (partial, as `C100_presentation_partial`.)  What crates/examples/attestation/verify.rs shows of a presentation under the
notary's key: there is one session of the notary such that the time shown is its time, the name shown is one for which
a certificate chain and a signature of the session's ephemeral key verify, and each byte shown is an `X` or the byte of the session at that
place; or a collision of a hash function exists. -/
theorem C100_shown_partial (checked : Bool) (p : Presentation) (c v : CryptoProvider) (k : VerifyingKey)
    (sessions : List Protocol.NotaryRun) (shown : Shown)
    (hp : ProviderOk c.hash) (hhash : v.hash = c.hash) (hdom : v.dom = c.dom) (hd : DomainsOk c.dom)
    (hout : ∀ alg h, c.hash alg = some h → ∃ N, OutLen N h)
    (hcirc : ∀ s ∈ sessions, Protocol.SameHashes s.env.hc c.hash)
    (hk : OnlySigned v k (sessions.map (·.attestation.header)))
    (hs : ∀ s ∈ sessions, s.Valid c)
    (hver : p.attestation.header.version < 2 ^ 32)
    (hrep : ∀ out, p.verify checked v = .ok out → out.attestation.body.Representable ∧
      (checked = true ∨ ∀ f ∈ out.attestation.body.fields, f.1 < p.attestation.body.proof.leafCount) ∧
      out.attestation.body.verifyingKey.data = k)
    (hn : ∀ s ∈ sessions, s.attestation.header = p.attestation.header →
      p.attestation.body.proof.leafCount = s.attestation.body.fieldCount)
    (h : showPresentation checked v p = some shown) :
    (∃ s ∈ sessions, shown.time = s.env.tls.time ∧
      (∃ (hsd : HandshakeData) (key : ServerEphemKey), s.env.tls.binding = some key ∧
        hsd.verify v.cert s.env.tls.time key shown.name = .ok ()) ∧
      shown.sent.length = s.data.sent.length % 2 ^ 32 ∧ shown.received.length = s.data.received.length % 2 ^ 32 ∧
      BytesOrX s.data.sent shown.sent ∧ BytesOrX s.data.received shown.received) ∨
    ∃ alg h, v.hash alg = some h ∧ Collision h := by
  unfold showPresentation at h
  split at h
  next out hv =>
    split at h
    next name t hname ht =>
      split at h
      next q hq =>
        obtain rfl := Option.some.inj h
        obtain ⟨r1, r2, r3⟩ := hrep out hv
        rcases Protocol.C100_presentation_partial checked p c v k sessions out hp hhash hdom hd hout hcirc hk hs hver r1 hn r2 hv r3 with
          ⟨s, hmem, h1, -, h3, h4⟩ | hcol
        · obtain ⟨htr, hl1, hl2⟩ := h3 t ht
          obtain ⟨q', hq', hspec⟩ := C05_set_unauthed t 88
          rw [hq] at hq'
          obtain rfl := Option.some.inj hq'
          have key : ∀ d, BytesOrX (s.data.data d) (q.data d) := by
            intro d i b hb
            obtain ⟨-, g2, g3, g4⟩ := hspec d
            by_cases hi : i ∈ t.authed d
            · right
              rw [← htr d i hi, ← g3 i hi, hb]
            · left
              have hlt : i < (t.data d).length := by rw [← g2]; exact (List.getElem?_eq_some_iff.1 hb).1
              rw [g4 i hi hlt] at hb
              exact (Option.some.inj hb).symm
          exact .inl ⟨s, hmem, h1, h4 name hname, (hspec .sent).2.1.trans hl1, (hspec .received).2.1.trans hl2, key .sent, key .received⟩
        · exact .inr hcol
      · cases h
    · cases h
  · cases h

end Tlsn.Demo
