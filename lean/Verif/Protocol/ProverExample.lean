import Verif.Protocol.Prover
import Verif.Protocol.ApplicationExample
import Verif.Drive.Demo

/-! # A session from the application behind the prover to the user of the verifier -/

namespace Tlsn.Protocol.ProverExample

open Tlsn.Client (Ev)
open Tlsn.Client.LeaderExample (backend flight second clientFinished clientVd serverVd hsData sealedBytes protectedFinished protectedData)
open Tlsn.MpcExample (leaderWorld)
open Tlsn.Drive (demoEnv)
open ApplicationExample (putIn fromLeader fromFollower fromLeader_ok fromFollower_ok calls_world keys)

def outside : Drive.Outside := ⟨Client.LeaderExample.world, fun _ => true, fun _ => true⟩

/-- The handshake, three bytes from the application, two from the server, and both sides close. -/
def acts : List Drive.Act := [.poll (demoEnv .pending), .appWrite [1, 2, 3], .poll (demoEnv (.data flight)), .poll (demoEnv .pending),
  .poll (demoEnv (.data second)), .poll (demoEnv .pending), .appRead 2, .appClose, .poll (demoEnv .pending), .poll (demoEnv .pending),
  .poll (demoEnv .eof)]

def driver : Drive.Driver := ((Drive.Driver.new Client.demoConn false).run Client.LeaderExample.cfg outside acts).1

/-- A call of `process` that has nothing to do. -/
def idle : List Ev := [.flush (.ok ()), .nextIn (.ok none), .nextOut (.ok none)]

def asked : List Ev := [.random (.ok (.replicate 32 1)), .keyShare (.ok ⟨0x17, [4, 1, 2]⟩), .prepare hsData (.ok ()),
  .clientVd (.replicate 32 3) (.ok clientVd), .pushOut clientFinished (.ok ()), .flush (.ok ()), .nextIn (.ok none),
  .nextOut (.ok (some ⟨.handshake, .tls12, sealedBytes 0 clientFinished.payload⟩)), .nextOut (.ok none)] ++ idle ++ idle ++ idle ++
  [.pushIn protectedFinished (.ok ()), .pushIn protectedData (.ok ()), .flush (.ok ()),
  .nextIn (.ok (some ⟨.handshake, .tls12, [0x14, 0, 0, 12] ++ serverVd⟩)), .serverVd (.replicate 32 3) (.ok serverVd), .startTraffic (.ok ()),
  .pushOut ⟨.applicationData, .tls12, [1, 2, 3]⟩ (.ok ()), .nextIn (.ok (some ⟨.applicationData, .tls12, [0x68, 0x69]⟩)), .nextIn (.ok none),
  .nextOut (.ok none), .flush (.ok ()), .nextIn (.ok none), .nextOut (.ok (some ⟨.applicationData, .tls12, sealedBytes 1 [1, 2, 3]⟩)),
  .nextOut (.ok none)] ++ idle ++ idle ++ idle ++ idle ++ idle ++
  [.pushOut ⟨.alert, .tls12, [1, 0]⟩ (.ok ()), .flush (.ok ()), .nextIn (.ok none),
  .nextOut (.ok (some ⟨.alert, .tls12, sealedBytes 2 [1, 0]⟩)), .nextOut (.ok none)] ++ idle ++ idle ++ idle ++ [.close (.ok ())]

def messages : List Mpc.Msg :=
  Mpc.sentMessages ((Mpc.Leader.new backend.sk backend.vm backend.defer).run backend.D backend.limits (backend.all asked leaderWorld)).2

def joint : Joint where
  cfg := Client.LeaderExample.cfg
  B := backend
  W := Client.LeaderExample.world
  c0 := Client.demoConn
  calls := driver.client.inner.trace.map (·.1)
  w := leaderWorld
  pd := putIn
  limits := MpcExample.limits
  sk := 2
  vm := emptyVm
  peerKey := some Kex.basePoint
  input := messages.map (·, MpcExample.world)
  tL := fromLeader ((backend.history asked).1.step backend.D backend.limits leaderWorld .finish).2.2
  tF := fromFollower (Mpc.runFollower { backend.D with peerData := putIn } MpcExample.limits 2 emptyVm (some Kex.basePoint)
    (messages.map (·, MpcExample.world)))

set_option maxRecDepth 100000

def log : List Ev := driver.client.inner.conn.io.common.log

theorem log_asked : (log.filter fun e => e.leaderCall.isSome) = asked := by decide +kernel

theorem gives_asked : backend.gives (backend.history []).1 0 asked = true := by decide +kernel

theorem driven : joint.DrivenBy outside ((Drive.Driver.new Client.demoConn false).run Client.LeaderExample.cfg outside acts).1 := by
  constructor
  · unfold joint outside; dsimp only
  · unfold joint driver; dsimp only

theorem log_eq : joint.log = log := by
  unfold log driver
  exact driven_log (by unfold joint; dsimp only) (by unfold joint; dsimp only) driven

theorem all_asked : joint.B.all joint.log joint.w = backend.all asked leaderWorld := by
  rw [log_eq]
  unfold joint
  dsimp only
  unfold Client.Backend.all
  rw [← backend.calls_filter log, log_asked]

theorem all_world {hs : Mpc.HsData} {w : Mpc.World} (h : (Mpc.LCall.prepareEncryption hs, w) ∈ backend.all asked leaderWorld) :
    w = leaderWorld := by
  rcases List.mem_append.1 h with h | h
  · rcases List.mem_append.1 h with h | h
    · simp [Client.Backend.setup] at h
    · exact calls_world asked _ h
  · simp at h

theorem valid : joint.Valid where
  fresh := emptyVm_fresh
  setup := Client.LeaderExample.setup_fine
  new := rfl
  faithful := by
    rw [log_eq]
    refine backend.faithful log (by rw [log_asked]; exact gives_asked) ?_
    have : log.all Client.LeaderExample.own = true := by decide +kernel
    exact fun e he => Client.LeaderExample.owned e (List.all_eq_true.1 this e he)
  short := by
    rw [log_eq]
    have : log.length ≤ 100 := by decide +kernel
    omega
  answered := by
    rw [log_eq]
    have : log.all Client.LeaderExample.isAnswered = true := by decide +kernel
    exact fun e he => Client.LeaderExample.answered e (List.all_eq_true.1 this e he)
  finished := by
    rw [log_eq]
    show ((backend.history log).1.step backend.D backend.limits leaderWorld .finish).2.2 = _
    rw [← backend.history_filter, log_asked]
    exact fromLeader_ok (by decide +kernel)
  fresh' := emptyVm_fresh
  short' := by
    have : joint.input.length ≤ 100 := by decide +kernel
    omega
  messages := by
    rw [all_asked]
    show (messages.map (·, MpcExample.world)).map (·.1) = messages
    rw [List.map_map]
    exact List.map_id _
  follower := fromFollower_ok (by decide +kernel)
  shares := by
    intro hs w hello w' h1 h2
    rw [all_asked] at h1
    have e1 : w = leaderWorld := all_world h1
    have e2 : w' = MpcExample.world := by
      obtain ⟨m, -, h⟩ := List.mem_map.1 h2
      cases h
      rfl
    subst e1 e2
    exact ⟨3, 5, 4, 2, rfl, rfl, rfl, rfl, rfl, rfl⟩
  data := by
    rw [all_asked]
    show ∀ x ∈ Mpc.outgoings 0 ((backend.all asked leaderWorld).map (·.1)), x.plaintext = some (putIn x.seq)
    decide +kernel

theorem hasKeys : joint.HasKeys keys := by
  intro hs w q0 q1 p0 h1 h2 h3
  rw [all_asked] at h1
  have e1 : hs.random = MpcExample.random 8 := by
    have key : ∀ x ∈ backend.all asked leaderWorld, ∀ hs, x.1 = .prepareEncryption hs → hs.random = MpcExample.random 8 := by
      have : ((backend.all asked leaderWorld).all fun x => match x.1 with
          | .prepareEncryption hs => decide (hs.random = MpcExample.random 8) | _ => true) = true := by
        decide +kernel
      intro x hx hs he
      have := List.all_eq_true.1 this x hx
      rw [he] at this
      exact of_decide_eq_true this
    exact key _ h1 hs rfl
  have e2 : w = leaderWorld := all_world h1
  subst e2
  have e3 : p0 = 3 := by injection h2 with h2; exact h2.symm
  have e4 : q0 = 4 := by
    injection h3 with h3
    injection h3 with h3
    exact (Kex.fpBytes_inj h3).symm
  rw [e1, e3, e4]
  rfl

def env : Env := { ApplicationExample.env with tls := joint.view }

def proverMem (a : Nat) : Byte :=
  match proverAfter env ApplicationExample.data (some (ApplicationExample.zkVm fun _ => 0)) [ApplicationExample.statement] with
  | some vp => vp.mem.getD a 0
  | none => 0

theorem holdsKeys : HoldsKeys (ApplicationExample.zkVm proverMem) env.keys keys := by
  refine ⟨⟨?_, ?_⟩, ⟨?_, ?_⟩, ⟨?_, ?_⟩, ⟨?_, ?_⟩⟩ <;> decide +kernel

/-- All hypotheses of `C131_prover` hold of a prover whose application wrote three bytes and read two. -/
example : joint.Valid ∧ joint.DrivenBy outside ((Drive.Driver.new Client.demoConn false).run Client.LeaderExample.cfg outside acts).1 ∧ joint.HasKeys keys ∧ env.tls = joint.view ∧
    HoldsKeys (ApplicationExample.zkVm proverMem) env.keys keys ∧
    (∀ ck civ sk siv, CounterMode env.aes (joint.B.D.aead ck civ sk siv).client ck civ ∧
      CounterMode env.aes (joint.B.D.aead ck civ sk siv).server sk siv) ∧
    ApplicationExample.outputOf ((VState.committed (ApplicationExample.zkVm proverMem)).run env ApplicationExample.calls).2[1]? =
      some (some [1, 2], 1, some ([1, 2, 0], [0x68, 0x69])) ∧
    driver.appWrote = [1, 2, 3] ∧ driver.appRead = [0x68, 0x69] := by
  refine ⟨valid, driven, hasKeys, rfl, holdsKeys, fun _ _ _ _ => ⟨fun _ _ => rfl, fun _ _ => rfl⟩, by decide +kernel, by decide +kernel,
    by decide +kernel⟩

end Tlsn.Protocol.ProverExample
