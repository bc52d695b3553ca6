import Verif.Protocol.Application
import Verif.Client.LeaderExample

/-! # A session from the caller of the TLS client to the user of the verifier -/

namespace Tlsn.Protocol.ApplicationExample

open Tlsn.Client.LeaderExample (backend asked transcript?)
open Tlsn.MpcExample (leaderWorld random)

/-- What stands for a transcript if there is none. -/
def noTranscript : TlsTranscript := ⟨0, .v12, none, none, ⟨random 0, random 0, ⟨[]⟩⟩, [], [], none, none, none⟩

def fromLeader : Mpc.LResult → TlsTranscript
  | .finished (some t) => t
  | _ => noTranscript

def fromFollower : Outcome Mpc.Err TlsTranscript → TlsTranscript
  | .ok t => t
  | _ => noTranscript

/-- The data of the leader, by sequence number. -/
def putIn (n : Nat) : Bytes := if n = 0 then [0x14, 0, 0, 12] ++ Client.LeaderExample.clientVd else if n = 1 then [1, 2, 3] else [1, 0]

def messages : List Mpc.Msg :=
  Mpc.sentMessages ((Mpc.Leader.new backend.sk backend.vm backend.defer).run backend.D backend.limits (backend.all asked leaderWorld)).2

def joint : Joint where
  cfg := Client.LeaderExample.cfg
  B := backend
  W := Client.LeaderExample.world
  c0 := Client.demoConn
  calls := Client.LeaderExample.calls
  w := leaderWorld
  pd := putIn
  limits := MpcExample.limits
  sk := 2
  vm := emptyVm
  peerKey := some Kex.basePoint
  input := messages.map (·, MpcExample.world)
  tL := fromLeader ((backend.history asked).1.step backend.D backend.limits leaderWorld .finish).2.2
  tF := fromFollower (Mpc.runFollower { backend.D with peerData := putIn } MpcExample.limits 2 emptyVm (some Kex.basePoint)
    (messages.map (·, MpcExample.world)))

set_option maxRecDepth 100000

theorem log_eq : joint.log = Client.LeaderExample.log := by
  unfold Joint.log Client.LeaderExample.log joint
  dsimp only

theorem all_asked : joint.B.all joint.log joint.w = backend.all asked leaderWorld := by
  rw [log_eq]
  unfold joint
  dsimp only
  unfold Client.Backend.all
  rw [← backend.calls_filter Client.LeaderExample.log, Client.LeaderExample.log_asked]

def isOk : Outcome Mpc.Err TlsTranscript → Bool
  | .ok _ => true
  | _ => false

theorem fromFollower_ok {o : Outcome Mpc.Err TlsTranscript} (h : isOk o = true) : o = .ok (fromFollower o) := by
  cases o <;> first | rfl | cases h

theorem fromLeader_ok {r : Mpc.LResult} (h : (transcript? r).isSome = true) : r = .finished (some (fromLeader r)) := by
  cases r <;> first | cases h | skip
  rename_i t
  cases t <;> first | rfl | cases h

theorem calls_world (log : List Client.Ev) : ∀ x ∈ backend.calls log, x.2 = leaderWorld := by
  induction log using List.reverseRecOn with
  | nil => intro x hx; cases hx
  | append_singleton log e ih =>
    intro x hx
    rw [backend.calls_snoc] at hx
    rcases List.mem_append.1 hx with hx | hx
    · exact ih x hx
    · rw [Option.mem_toList, Option.map_eq_some_iff] at hx
      obtain ⟨c, -, rfl⟩ := hx
      rfl

theorem all_world {hs : Mpc.HsData} {w : Mpc.World} (h : (Mpc.LCall.prepareEncryption hs, w) ∈ backend.all asked leaderWorld) :
    w = leaderWorld := by
  rcases List.mem_append.1 h with h | h
  · rcases List.mem_append.1 h with h | h
    · simp [Client.Backend.setup] at h
    · exact calls_world asked _ h
  · simp at h

theorem valid : joint.Valid where
  fresh := emptyVm_fresh
  setup := Client.LeaderExample.setup_fine
  new := rfl
  faithful := by rw [log_eq]; exact Client.LeaderExample.log_faithful
  short := by rw [log_eq]; exact Client.LeaderExample.log_short
  answered := by rw [log_eq]; exact Client.LeaderExample.log_answered
  finished := by
    rw [log_eq]
    show ((backend.history Client.LeaderExample.log).1.step backend.D backend.limits leaderWorld .finish).2.2 = _
    rw [← backend.history_filter, Client.LeaderExample.log_asked]
    exact fromLeader_ok (by decide +kernel)
  fresh' := emptyVm_fresh
  short' := by
    have : joint.input.length ≤ 100 := by decide +kernel
    omega
  messages := by
    rw [all_asked]
    show (messages.map (·, MpcExample.world)).map (·.1) = messages
    rw [List.map_map]
    exact List.map_id _
  follower := fromFollower_ok (by decide +kernel)
  shares := by
    intro hs w hello w' h1 h2
    rw [all_asked] at h1
    have e1 : w = leaderWorld := all_world h1
    have e2 : w' = MpcExample.world := by
      obtain ⟨m, -, h⟩ := List.mem_map.1 h2
      cases h
      rfl
    subst e1 e2
    exact ⟨3, 5, 4, 2, rfl, rfl, rfl, rfl, rfl, rfl⟩
  data := by
    rw [all_asked]
    show ∀ x ∈ Mpc.outgoings 0 ((backend.all asked leaderWorld).map (·.1)), x.plaintext = some (putIn x.seq)
    decide +kernel

/-- The keys that both parties have in the machine of the proofs. -/
def keys : KeyBytes := keysOf toySha (Kex.fpBytes 7) (random 1).toList (.replicate 32 8)

theorem hasKeys : joint.HasKeys keys := by
  intro hs w q0 q1 p0 h1 h2 h3
  rw [all_asked] at h1
  have e1 : hs.random = random 8 := by
    have key : ∀ x ∈ backend.all asked leaderWorld, ∀ hs, x.1 = .prepareEncryption hs → hs.random = random 8 := by
      have : ((backend.all asked leaderWorld).all fun x => match x.1 with | .prepareEncryption hs => decide (hs.random = random 8) | _ => true) = true := by
        decide +kernel
      intro x hx hs he
      have := List.all_eq_true.1 this x hx
      rw [he] at this
      exact of_decide_eq_true this
    exact key _ h1 hs rfl
  have e2 : w = leaderWorld := all_world h1
  subst e2
  have e3 : p0 = 3 := by injection h2 with h2; exact h2.symm
  have e4 : q0 = 4 := by
    injection h3 with h3
    injection h3 with h3
    exact (Kex.fpBytes_inj h3).symm
  rw [e1, e3, e4]
  rfl

def env : Env := ⟨fun _ _ => .replicate 16 0, exCircuits, true, some exCerts, exKeyRefs, joint.view⟩

/-- The name and what the prover says of the handshake. -/
def identity : HandshakeData := ⟨[[1], [2]], .ecdsaP256Sha256, [1, 1, 1, 1], random 1, random 8, ⟨[4, 8, 9]⟩⟩

/-- The prover reveals two of the bytes that were sent and the two that were received, and commits to one that was sent. -/
def statement : Round := ⟨⟨true, some (RangeSet.ofRange 0 2, RangeSet.ofRange 0 2), some ⟨[((.sent, RangeSet.ofRange 2 3), 1)]⟩⟩,
  fun _ => .replicate 16 5, fun _ => none⟩

def data : Transcript := ⟨[1, 2, 3], [0x68, 0x69]⟩

def zkVm (fill : Nat → Byte) : ZkVm := ⟨keys.clientKey ++ keys.clientIv ++ keys.serverKey ++ keys.serverIv, fill, [], []⟩

def proverMem (a : Nat) : Byte :=
  match proverAfter env data (some (zkVm fun _ => 0)) [statement] with
  | some vp => vp.mem.getD a 0
  | none => 0

/-- The prover's message for the statement. -/
def msg : ProveMsg := ⟨statement.config.toRequest, some ([1, 2], identity),
  some ⟨[1, 2, 0], [0x68, 0x69], RangeSet.ofRange 0 2, RangeSet.ofRange 0 2⟩⟩

example : (proverMsg statement.config [1, 2] identity data).map (fun m => (m.handshake, m.transcript)) = some (msg.handshake, msg.transcript) := by
  decide +kernel

def calls : List VCall := [.verify (some msg), .accept true]

theorem holdsKeys : HoldsKeys (zkVm proverMem) env.keys keys := by
  refine ⟨⟨?_, ?_⟩, ⟨?_, ?_⟩, ⟨?_, ?_⟩, ⟨?_, ?_⟩⟩ <;> decide +kernel

def outputOf : Option VResult → Option (Option ServerName × Nat × Option (Bytes × Bytes))
  | some (.output out) => some (out.serverName, out.commitments.length, out.transcript.map fun t => (t.sent, t.received))
  | _ => none

/-- All hypotheses of C131 hold of a session in which the caller wrote three bytes and read two, and the verifier's user gets two of the
first and both of the others. -/
example : joint.Valid ∧ joint.HasKeys keys ∧ env.tls = joint.view ∧ HoldsKeys (zkVm proverMem) env.keys keys ∧
    (∀ ck civ sk siv, CounterMode env.aes (joint.B.D.aead ck civ sk siv).client ck civ ∧
      CounterMode env.aes (joint.B.D.aead ck civ sk siv).server sk siv) ∧
    outputOf ((VState.committed (zkVm proverMem)).run env calls).2[1]? = some (some [1, 2], 1, some ([1, 2, 0], [0x68, 0x69])) := by
  refine ⟨valid, hasKeys, rfl, holdsKeys, fun _ _ _ _ => ⟨fun _ _ => rfl, fun _ _ => rfl⟩, by decide +kernel⟩

example : Client.written joint.results = [1, 2, 3] ∧ Client.readOut joint.results = [0x68, 0x69] := by
  unfold Joint.results joint
  dsimp only
  constructor <;> decide +kernel

/-- The partial transcript that the prover sends is well-formed. -/
example : WellFormedCalls calls := by
  intro m t hm ht
  simp only [calls, List.mem_cons, VCall.verify.injEq, Option.some.injEq, reduceCtorEq, List.not_mem_nil, or_false] at hm
  subst hm
  injection ht with ht
  subst ht
  intro d
  cases d <;> exact RangeSet.endD_le_iff.1 (by decide +kernel)

end Tlsn.Protocol.ApplicationExample
