import Verif.Protocol.Prover
import Verif.Sdk.Verify

/-! # From the application behind the prover to the user of the SDK's verifier -/

namespace Tlsn.Sdk

open Tlsn.Protocol (Joint CounterMode)

/-- **C120**: the verifier of the SDK and the application behind a prover.  If `verify` returns an output, whatever arrived from the prover,
then in its sent data the bytes in the authenticated ranges are those that the application wrote to its connection at these places, in the
received data they are those that the application read there, as far as it has read, and all others are zero; the
number of bytes sent is at most that which the application wrote, and that of bytes received is at least that which it read; both are stated modulo 2^32. -/
theorem C120_application {cfg : Client.ClientCfg} (X : Drive.Outside) (c0 : Client.Conn) (b : Bool) (acts : List Drive.Act)
    (j : Joint) (hj : j.Valid) (hcfg : j.cfg = cfg) (hc0 : j.c0 = c0)
    (hd : j.DrivenBy X ((Drive.Driver.new c0 b).run cfg X acts).1)
    (env : Protocol.Env) (htls : env.tls = j.view)
    (haes : ∀ ck civ sk siv, CounterMode env.aes (j.B.D.aead ck civ sk siv).client ck civ ∧
      CounterMode env.aes (j.B.D.aead ck civ sk siv).server sk siv)
    (k : KeyBytes) (hk : j.HasKeys k) (vm : ZkVm) (hvm : HoldsKeys vm env.keys k)
    (version : TlsVersion) (l : SdkVerifierConfig) (calls : List VCall) (n : Nat) (m : Option WireMsg) (ok : Bool)
    (o : SdkVerifierOutput)
    (h : (runVerifier l calls).2[n]? = some (.verify (sessionInfo env.tls version) (verifySteps env vm m ok), .output o)) :
    let d := ((Drive.Driver.new c0 b).run cfg X acts).1
    ∃ sent received : Nat, sent ≤ d.appWrote.length ∧ d.appRead.length ≤ received ∧
      o.connection.sentLength = sent % 2 ^ 32 ∧ o.connection.recvLength = received % 2 ^ 32 ∧
      ∀ t, o.transcript = some t → Shows (d.appWrote.take sent) t.sent t.sentAuthed ∧
        t.recv.length = received ∧
        (∀ r ∈ t.recvAuthed, ∀ i, r.1 ≤ i → i < r.2 → i < d.appRead.length → t.recv[i]? = d.appRead[i]?) ∧
        ∀ i < received, (∀ r ∈ t.recvAuthed, ¬ (r.1 ≤ i ∧ i < r.2)) → t.recv[i]? = some 0 := by
  intro d
  obtain ⟨hwr, hrd⟩ := Protocol.driven hcfg hc0 hd
  obtain ⟨hw, h1, h2, -⟩ := Protocol.C131_session j hj env.aes haes k hk
  rw [← htls] at hw h1 h2
  obtain ⟨-, w, certs, -, -, ⟨g1, g2, -⟩, -, -⟩ := C120_output env k vm hvm hw version l calls n m ok o h
  have hs := h1.trans hwr
  have hr := hrd.trans h2
  refine ⟨_, _, hs.length_le, hr.length_le, by rw [g1], by rw [g1], fun t ht => ?_⟩
  obtain ⟨s1, s2⟩ := g2 t ht
  rw [← List.prefix_iff_eq_take.1 hs]
  refine ⟨s1, s2.length, fun r hmem i hi hi' hlt => ?_, s2.zero⟩
  rw [s2.true r hmem i hi hi']
  exact (Protocol.prefix_get hr hlt).symm

end Tlsn.Sdk
