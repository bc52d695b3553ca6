import Verif.Pki.EndToEnd

/-! # A server with a key on P-256, and one with a key on P-384 -/

namespace Tlsn.Pki.Example

open Client (ClientCfg Conn demoCfg demoWorld demoConn eventsOf askedPrepare)
open Mpc (LCall Leader)
open MpcExample (random)

/-- Toy certificates: `[1]` is the server's, which has the key `k`, `[2]` an intermediate one, `[7]` the root.  The path is valid from
second 5 to second 1000.  A signature is the first four bytes of the message. -/
def toy (k : KeyAlg) : WebPki where
  parses c := c ≠ []
  keyAlg c := if c = [1] then some k else none
  raw _ _ message sig := sig = message.take 4
  anchor c := if c = [] then none else some c
  path as leaf is t := as = [[7]] ∧ leaf = [1] ∧ is = [[2]] ∧ 5 ≤ t ∧ t ≤ 1000
  nameOk _ n := n = [0x73, 0x72, 0x76]
  sct _ _ s _ := if s = [1] then .ok () else .error ⟨s = [2], 0⟩

/-- C106: which schemes fit which keys, and what is recorded. -/
example : (toy .p256).determineAlg [1] [5, 5, 5, 5, 9] 0x0403 [5, 5, 5, 5] = .ok .ecdsaP256Sha256 ∧
    (toy .p256).determineAlg [1] [5, 5, 5, 5, 9] 0x0503 [5, 5, 5, 5] = .ok .ecdsaP256Sha384 ∧
    (toy .p384).determineAlg [1] [5, 5, 5, 5, 9] 0x0503 [5, 5, 5, 5] = .ok .ecdsaP256Sha384 ∧
    (toy .rsa).determineAlg [1] [5, 5, 5, 5, 9] 0x0804 [5, 5, 5, 5] = .ok .rsaPssSha256 ∧
    (toy .rsa).determineAlg [1] [5, 5, 5, 5, 9] 0x0403 [5, 5, 5, 5] = .err .unsupported ∧
    (toy .p256).determineAlg [1] [5, 5, 5, 5, 9] 0x0403 [5, 5, 5, 6] = .err .invalidSignature ∧
    (toy .p256).determineAlg [1] [5, 5, 5, 5, 9] 0x0203 [5, 5, 5, 5] = .err .misbehaved := by decide +kernel

/-- C106: the record of the signature of a key on P-384 is not accepted, in the MPC mode; in the proxy mode it is. -/
example : (((toy .p384).certVerifier []).sigOk [1] .ecdsaP256Sha384 [5, 5, 5, 5, 9] [5, 5, 5, 5]) = false ∧
    mapSignatureScheme ⟨fun _ => true, id, fun _ => some .p384⟩ 0x0503 [[1]] = .ok .ecdsaP384Sha384 ∧
    (((toy .p384).certVerifier []).sigOk [1] .ecdsaP384Sha384 [5, 5, 5, 5, 9] [5, 5, 5, 5]) = true := by decide +kernel

example : (toy .p384).verifyTls13 [5, 5, 5, 5, 9] [1] 0x0503 [5, 5, 5, 5] = .ok () ∧
    (toy .p384).verifyTls13 [5, 5, 5, 5, 9] [1] 0x0403 [5, 5, 5, 5] = .error .unsupportedForKey := by decide +kernel

/-- C107: the time, the roots, the name and the timestamps matter. -/
example :
    let check := fun roots name scts ct now => (toy .p256).clientVerifyCert roots ct [1] [[2]] name scts now
    let srv : ServerName := [0x73, 0x72, 0x76]
    check [[7]] srv [] none 5000000000 = .ok () ∧ check [[7]] srv [] none 4999999999 = .error .path ∧
    check [[6]] srv [] none 5000000000 = .error .path ∧ check [[7]] [0x73] [] none 5000000000 = .error .name ∧
    check [[7]] srv [] none (-1) = .error .time ∧
    check [[7]] srv [[3], [1], [2]] (some ⟨[[4]], 5000000000⟩) 5000000000 = .ok () ∧
    check [[7]] srv [[3], [2], [1]] (some ⟨[[4]], 5000000000⟩) 5000000000 = .error (.sct ⟨true, 0⟩) ∧
    check [[7]] srv [[3]] (some ⟨[[4]], 5000000000⟩) 5000000000 = .error (.sct ⟨false, 0⟩) ∧
    check [[7]] srv [[3]] (some ⟨[[4]], 4999999999⟩) 5000000000 = .ok () := by decide +kernel

example : (toy .p256).anchors [[7], [6]] = .ok [[7], [6]] ∧ (toy .p256).anchors [[7], []] = .error [] := by decide +kernel

/-! ## C108 -/

def cfg (k : KeyAlg) : ClientCfg := { demoCfg with
  verifySchemes := verificationSchemes
  verifyCert := fun leaf is name scts _ now => match (toy k).clientVerifyCert [[7]] none leaf is name scts now with
    | .ok () => .ok ()
    | .error _ => .error 1
  verifySig := fun message cert dss => match (toy k).verifySignedStruct message cert dss.scheme dss.sig with
    | .ok () => .ok ()
    | _ => .error 2 }

def world : Client.World := { demoWorld with now := fun _ => 5000000000 }

theorem configured (k : KeyAlg) : Configured (toy k) [[7]] (cfg k) where
  cert leaf is name scts ocsp now := by
    simp only [cfg]
    cases (toy k).clientVerifyCert [[7]] none leaf is name scts now <;> simp
  sig message cert dss := by
    simp only [cfg]
    cases (toy k).verifySignedStruct message cert dss.scheme dss.sig <;> simp
  schemes := rfl

def deps (k : KeyAlg) : Mpc.Deps := { MpcExample.deps with
  sigAlg := fun cert m s g => match (toy k).determineAlg cert m s g with
    | .ok alg => some alg
    | _ => none }

def master : Bytes := toySha.masterSecret (Kex.fpBytes 7) (random 5).toList (random 8).toList

def cf : Bytes := hsBytes (0x14, toySha.clientVerifyData master (random 3).toList)

def sf : Bytes := hsBytes (0x14, toySha.serverVerifyData master (random 4).toList)

def hsData : Mpc.HsData := ⟨random 8, ⟨.secp256r1, [4, 8, 9]⟩, [[1], [2]], [3, 0, 0x17, 3, 4, 8, 9], 0x0403, [5, 5, 5, 5]⟩

def leaderCalls : List LCall := [
  .alloc (random 5) (.replicate 100 5), .preprocess (some Kex.basePoint), .clientRandom, .prepareEncryption hsData,
  .clientFinishedVd (random 3).toList, .pushOutgoing ⟨.handshake, .tls12, cf⟩, .flush, .nextOutgoing,
  .serverFinishedVd (random 4).toList, .pushIncoming ⟨.handshake, .tls12, .replicate 8 0 ++ sf ++ .replicate 16 0⟩, .flush,
  .nextIncoming, .startTraffic, .pushOutgoing ⟨.applicationData, .tls12, [60]⟩, .flush, .nextOutgoing, .enableDecryption false,
  .pushIncoming ⟨.applicationData, .tls12, .replicate 8 1 ++ [50, 51] ++ .replicate 16 0⟩, .flush,
  .pushOutgoing ⟨.alert, .tls12, [1, 0]⟩, .flush, .nextOutgoing, .isEmpty, .closeConnection, .finish]

def run (k : KeyAlg) : List (List Mpc.Msg × Mpc.LResult) :=
  ((Leader.new 2 emptyVm false).run (deps k) MpcExample.limits (leaderCalls.map (·, MpcExample.leaderWorld))).2

/-- The session with the key on P-256 gives a transcript that a verifier accepts, that with the key on P-384 one that it rejects. -/
example : (MpcExample.transcripts (run .p256)).map (fun t => (handshakeOf t).map fun d =>
      d.verify ((toy .p256).certVerifier [[7]]) t.time t.certificateBinding.serverEphemeralKey [0x73, 0x72, 0x76]) = [some (.ok ())] ∧
    (MpcExample.transcripts (run .p384)).map (fun t => (handshakeOf t).map fun d =>
      d.verify ((toy .p384).certVerifier [[7]]) t.time t.certificateBinding.serverEphemeralKey [0x73, 0x72, 0x76]) =
      [some (.error .signature)] := by decide +kernel

/-- The hypotheses of C108 are met by these sessions. -/
theorem driven (k : KeyAlg) (hk : k = .p256 ∨ k = .p384) :
    Driven (demoConn.run (cfg k) world Client.demoCalls).1.io.common.log (leaderCalls.map (·, MpcExample.leaderWorld)) := by
  have hlog : (eventsOf askedPrepare (demoConn.run (cfg k) world Client.demoCalls).1.io.common.log) =
      [⟨List.replicate 32 8, ⟨0x17, [4, 8, 9]⟩, [[1], [2]], [], none, [3, 0, 0x17, 3, 4, 8, 9], ⟨0x0403, [5, 5, 5, 5]⟩⟩] ∧
      Client.Ev.random (.ok (List.replicate 32 5)) ∈ (demoConn.run (cfg k) world Client.demoCalls).1.io.common.log := by
    rcases hk with rfl | rfl <;> decide +kernel
  constructor
  · intro cr otp w h
    simp only [leaderCalls, List.map_cons, List.map_nil, List.mem_cons, Prod.mk.injEq, reduceCtorEq, false_and, or_false, false_or,
      LCall.alloc.injEq, List.not_mem_nil] at h
    rw [h.1.1]
    exact hlog.2
  · intro hs w h
    simp only [leaderCalls, List.map_cons, List.map_nil, List.mem_cons, Prod.mk.injEq, reduceCtorEq, false_and, or_false, false_or,
      LCall.prepareEncryption.injEq, List.not_mem_nil] at h
    rw [h.1, hlog.1]
    exact ⟨_, List.mem_singleton_self _, ⟨by decide +kernel, by decide, rfl, rfl, rfl, rfl, rfl⟩⟩

example (k : KeyAlg) (cert m : Bytes) (s : UInt16) (g : Bytes) (alg : SignatureAlgorithm) :
    (deps k).sigAlg cert m s g = some alg ↔ (toy k).determineAlg cert m s g = .ok alg := by
  simp only [deps]
  cases (toy k).determineAlg cert m s g <;> simp

example : Conn.new (cfg .p256) = .ok demoConn ∧ Mpc.VdOnce (leaderCalls.map (·, MpcExample.leaderWorld)) ∧
    (run .p256).all (fun r => MpcExample.fine r.2) = true ∧ (run .p384).all (fun r => MpcExample.fine r.2) = true ∧
    (MpcExample.transcripts (run .p256)).map (fun t => (t.serverCertChain, t.time)) = [(some [[1], [2]], 1000)] := by
  refine ⟨rfl, by unfold Mpc.VdOnce; decide +kernel, by decide +kernel, by decide +kernel, by decide +kernel⟩

end Tlsn.Pki.Example
