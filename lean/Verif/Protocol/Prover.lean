import Verif.Protocol.Presented
import Verif.Drive.Props

/-! # From the application behind the prover to the user of the verifier -/

namespace Tlsn.Protocol

open Tlsn.Mpc (LCall)

theorem run_calls (cfg : Client.ClientCfg) (W : Client.World) (c0 : Client.Conn) (l : List Client.Call) :
    (c0.run cfg W l).2.map (·.1) = l := by
  unfold Client.Conn.run
  induction l using List.reverseRecOn with
  | nil => rfl
  | append_singleton l k ih => rw [Sdk.runCalls_snoc]; simp [ih]

/-- The TLS client of the session is the one that the prover's future `d` drives. -/
structure Joint.DrivenBy (j : Joint) (X : Drive.Outside) (d : Drive.Driver) : Prop where
  world : j.W = X.W
  calls : j.calls = d.client.inner.trace.map (·.1)

theorem driven {cfg : Client.ClientCfg} {X : Drive.Outside} {c0 : Client.Conn} {b : Bool} {acts : List Drive.Act} {j : Joint} (hc : j.cfg = cfg)
    (h0 : j.c0 = c0) (h : j.DrivenBy X ((Drive.Driver.new c0 b).run cfg X acts).1) :
    Client.written j.results <+: ((Drive.Driver.new c0 b).run cfg X acts).1.appWrote ∧
      ((Drive.Driver.new c0 b).run cfg X acts).1.appRead <+: Client.readOut j.results := by
  have hk : Drive.Kept cfg X.W c0 _ := Drive.kept_run X c0 b acts
  obtain ⟨l, hl⟩ := hk.ran
  have h2 : (c0.run cfg X.W l).2 = ((Drive.Driver.new c0 b).run cfg X acts).1.client.inner.trace := by rw [hl]; rfl
  have hr : j.results = ((Drive.Driver.new c0 b).run cfg X acts).1.client.inner.trace := by
    unfold Joint.results
    rw [h.calls, h.world, h0, hc, ← h2, run_calls]
  rw [hr]
  exact ⟨⟨_, hk.wrote.symm⟩, ⟨_, hk.read.symm⟩⟩

theorem driven_log {cfg : Client.ClientCfg} {X : Drive.Outside} {c0 : Client.Conn} {b : Bool} {acts : List Drive.Act} {j : Joint}
    (hc : j.cfg = cfg) (h0 : j.c0 = c0) (h : j.DrivenBy X ((Drive.Driver.new c0 b).run cfg X acts).1) :
    j.log = ((Drive.Driver.new c0 b).run cfg X acts).1.client.inner.conn.io.common.log := by
  have hk : Drive.Kept cfg X.W c0 _ := Drive.kept_run X c0 b acts
  obtain ⟨l, hl⟩ := hk.ran
  have h2 : (c0.run cfg X.W l).2 = ((Drive.Driver.new c0 b).run cfg X acts).1.client.inner.trace := by rw [hl]; rfl
  have h1 : (c0.run cfg X.W l).1 = ((Drive.Driver.new c0 b).run cfg X acts).1.client.inner.conn := by rw [hl]; rfl
  unfold Joint.log
  rw [h.calls, h.world, h0, hc, ← h2, run_calls, h1]

/-- C131: the prover's future in whatever schedule, the application that uses its connection, the leader, the follower and the verifier.  In
each output of the verifier, every authenticated byte of the sent data is the byte that the application wrote to its connection at this
place, every authenticated byte of the received data is the one that the application read there, as far as it has read; and not
more bytes count as sent than the application wrote, nor fewer as received than it read. -/
theorem C131_prover {cfg : Client.ClientCfg} (X : Drive.Outside) (c0 : Client.Conn) (b : Bool) (acts : List Drive.Act)
    (j : Joint) (hj : j.Valid) (hcfg : j.cfg = cfg) (hc0 : j.c0 = c0)
    (hd : j.DrivenBy X ((Drive.Driver.new c0 b).run cfg X acts).1)
    (env : Env) (htls : env.tls = j.view)
    (haes : ∀ ck civ sk siv, CounterMode env.aes (j.B.D.aead ck civ sk siv).client ck civ ∧
      CounterMode env.aes (j.B.D.aead ck civ sk siv).server sk siv)
    (k : KeyBytes) (hk : j.HasKeys k) (vm : ZkVm) (hvm : HoldsKeys vm env.keys k)
    (cs : List VCall) (hcs : WellFormedCalls cs) (i : Nat) (out : VerifierOutput)
    (ho : ((VState.committed vm).run env cs).2[i]? = some (.output out)) (t : PartialTranscript) (ht : out.transcript = some t) :
    let d := ((Drive.Driver.new c0 b).run cfg X acts).1
    (∀ x ∈ t.sentAuthed, x < t.sent.length → t.sent[x]? = d.appWrote[x]?) ∧
      (∀ x ∈ t.receivedAuthed, x < d.appRead.length → t.received[x]? = d.appRead[x]?) ∧
      t.sent.length ≤ d.appWrote.length ∧ d.appRead.length ≤ t.received.length := by
  intro d
  obtain ⟨hw, hr⟩ := driven hcfg hc0 hd
  obtain ⟨h1, h2, h3, h4⟩ := (C131_output j hj env htls haes k hk vm hvm cs hcs i out ho).1 t ht
  refine ⟨fun x hx hlt => ?_, fun x hx hlt => ?_, h3.trans hw.length_le, hr.length_le.trans h4⟩
  · rw [h1 x hx hlt]
    exact prefix_get hw (hlt.trans_le h3)
  · rw [h2 x hx (hlt.trans_le hr.length_le)]
    exact (prefix_get hr hlt).symm

end Tlsn.Protocol
