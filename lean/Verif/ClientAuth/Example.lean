import Verif.ClientAuth.Identity
import Verif.Pki.Example

/-! # A client with a key on P-256 in the encoding SEC1 -/

namespace Tlsn.ClientAuth.Example

open Pki.Example (toy world)
open Client (demoConn demoKx demoSecond hsRecord eventsOf)

/-- A short key on P-256 as PKCS#8. -/
def wrapped : Bytes := [0x30, 0x1f, 2, 1, 0, 0x30, 0x13, 6, 7, 0x2a, 0x86, 0x48, 0xce, 0x3d, 2, 1, 6, 8, 0x2a, 0x86, 0x48, 0xce, 0x3d, 3, 1, 7,
  4, 5, 9, 9, 9, 9, 9]

/-- A toy of `ring`: it knows that key, an RSA key `[8]` and an Ed25519 key `[6]`; a signature is the first four bytes of the message. -/
def ring : Ring where
  rsaDer _ := none
  rsaPkcs8 der := if der = [8] then some [8] else none
  ecdsaP256 der := if der = wrapped then some [9] else none
  ecdsaP384 _ := none
  ed25519 der := if der = [6] then some [6] else none
  sign _ _ message _ := some (message.take 4)

/-- The certificate `[3]` is the client's. -/
def env : Env where
  pki := { toy .p256 with keyAlg := fun c => if c = [1] ∨ c = [3] then some .p256 else none }
  ring := ring
  hash := fun b => b.drop (b.length - 4)
  dnsOk := fun _ => true
  sni := some

/-- C109. -/
example : anySupported ring [9, 9, 9, 9, 9] = some (.p256 [9]) ∧ anySupported ring wrapped = some (.p256 [9]) ∧
    anySupported ring [8] = some (.rsa [8]) ∧ anySupported ring [6] = some (.ed25519 [6]) ∧ anySupported ring [7] = none := by decide +kernel

example : derRead (wrapInSequence (List.replicate 300 7)) = some (0x30, List.replicate 300 7, []) ∧
    (wrapInSequence (List.replicate 300 7)).take 4 = [0x30, 0x82, 1, 44] ∧
    derRead [0x30, 0x81, 5, 1, 1, 1, 1, 1] = none := by decide +kernel

/-- C110: schemes. -/
example : (SigningKey.rsa [8]).chooseScheme [0x0401, 0x0805, 0x0403, 0x0804] = some 0x0805 ∧
    (SigningKey.p256 [9]).chooseScheme [0x0503, 0x0401] = none ∧
    (SigningKey.rsa [8]).sign ring 0x0805 [1, 2, 3, 4, 5] [] = .ok [1, 2, 3, 4] ∧
    (SigningKey.rsa [8]).sign ring 0x0403 [1, 2, 3, 4, 5] [] = .panic := by decide +kernel

def config : TlsClientConfig := ⟨[0x73, 0x72, 0x76], [[7]], some ([[3]], [9, 9, 9, 9, 9])⟩

example : (TlsConfigBuilder.mk (some [0x73, 0x72, 0x76]) (some [[7]]) (some ([[3]], [9, 9, 9, 9, 9]))).build = .ok config ∧
    (TlsConfigBuilder.mk none (some [[7]]) none).build = .error .serverName ∧
    (TlsConfigBuilder.mk (some []) none none).build = .error .rootStore := by decide +kernel

def cfg : Client.ClientCfg := newInner env [[7]] [0x73, 0x72, 0x76] (.always [[3]] (.p256 [9]))

theorem configOk : createClientConfig env config = .ok cfg := by
  have h1 : env.pki.anchors config.rootStore = .ok [[7]] := by decide +kernel
  have h2 : resolverOf env.ring config.clientAuth = .ok (.always [[3]] (.p256 [9])) := by decide +kernel
  unfold createClientConfig
  rw [h1]
  simp only
  rw [h2]
  rfl

/-- C111: a root that cannot be read, and a key. -/
example : (match createClientConfig env { config with rootStore := [[7], []] } with | .error e => some e | .ok _ => none) = some (.root []) ∧
    (match createClientConfig env { config with clientAuth := some ([[3]], [7]) } with | .error e => some e | .ok _ => none) = some .key := by
  decide +kernel

/-- A server that asks for a certificate. -/
def flight : Bytes := hsRecord [
  ⟨0x02, .serverHello ⟨.tls12, List.replicate 32 8, [], 0xc02b, 0, [.ecPointFormats [0]]⟩⟩,
  ⟨0x0b, .certificate [[1], [2]]⟩,
  ⟨0x0c, .serverKeyExchange (codecEcdheServerKeyExchange.encode demoKx)⟩,
  ⟨0x0d, .certificateRequest ⟨[64], [0x0401, 0x0403], []⟩⟩,
  ⟨0x0e, .serverHelloDone⟩]

/-- One that offers no scheme that goes with the key. -/
def other : Bytes := hsRecord [
  ⟨0x02, .serverHello ⟨.tls12, List.replicate 32 8, [], 0xc02b, 0, [.ecPointFormats [0]]⟩⟩,
  ⟨0x0b, .certificate [[1], [2]]⟩,
  ⟨0x0c, .serverKeyExchange (codecEcdheServerKeyExchange.encode demoKx)⟩,
  ⟨0x0d, .certificateRequest ⟨[64], [0x0401], []⟩⟩,
  ⟨0x0e, .serverHelloDone⟩]

def answers : Client.World := { world with sign := fun _ _ message => .ok (message.take 4) }

theorem newOk : Client.Conn.new cfg = .ok demoConn := rfl

def calls (first : Bytes) : List Client.Call := [.start, .readTls first, .process 10, .readTls demoSecond, .process 10]

/-- C110: the handshake is completed; the chain is sent, and a signature. -/
example :
    let c := (demoConn.run cfg answers (calls flight)).1
    c.isHandshaking = false ∧ eventsOf sentChain c.io.common.log = [[[3]]] ∧ (eventsOf signed c.io.common.log).length = 1 ∧
    (eventsOf sentVerify c.io.common.log).map (·.scheme) = [0x0403] := by decide +kernel

/-- C110: the handshake is completed without one. -/
example :
    let c := (demoConn.run cfg answers (calls other)).1
    c.isHandshaking = false ∧ eventsOf sentChain c.io.common.log = [[]] ∧ eventsOf signed c.io.common.log = [] := by decide +kernel

/-- C110: a server without a certificate that the client accepts gets none of it. -/
example :
    let c := (demoConn.run cfg { answers with now := fun _ => 4999999999 } (calls flight)).1
    c.isHandshaking = true ∧ eventsOf sentChain c.io.common.log = [] := by decide +kernel

/-- C110: the conditions of `C110_accepted`. -/
example : HasIdentity env.ring config [[3]] (.p256 [9]) ∧
    (∀ log s m sig, answers.sign log s m = .ok sig → ∃ rnd, (SigningKey.p256 [9]).sign env.ring s m rnd = .ok sig) ∧
    env.pki.parses [3] = true ∧ env.pki.keyAlg [3] = some (SigningKey.p256 [9]).alg ∧
    (∀ kind m rnd sig, env.ring.sign (SigningKey.p256 [9]).pair kind m rnd = some sig → env.pki.raw [3] kind m sig = true) := by
  refine ⟨⟨[9, 9, 9, 9, 9], rfl, by decide +kernel⟩, fun log s m sig h => ⟨[], ?_⟩, by decide +kernel, by decide +kernel, fun kind m rnd sig h => ?_⟩
  · cases h
    rfl
  · cases h
    simp [env, toy]

end Tlsn.ClientAuth.Example
