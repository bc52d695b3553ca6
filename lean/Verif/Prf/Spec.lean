import Verif.Prf.Sha

/-!
# The pseudorandom function of TLS 1.2 and what is derived with it

RFC 5246, sections 5, 6.3, 7.4.9 and 8.1, and RFC 7627, section 4.  Nothing here refers to the model.
-/

namespace Tlsn.Hmac

/-- The bytes of a text. -/
def ascii (s : String) : Bytes := s.toUTF8.toList

/-- RFC 5246, 5: `A(0) = seed`, `A(i) = HMAC_hash(secret, A(i-1))`. -/
def Sha.aSeq (S : Sha) (secret seed : Bytes) : Nat → Bytes
  | 0 => seed
  | i + 1 => S.hmac secret (S.aSeq secret seed i)

/-- RFC 5246, 5: the first `n` terms of `P_hash(secret, seed) = HMAC_hash(secret, A(1) + seed) + HMAC_hash(secret, A(2) +
seed) + …`. -/
def Sha.pHash (S : Sha) (secret seed : Bytes) (n : Nat) : Bytes :=
  (List.range n).flatMap fun i => S.hmac secret (S.aSeq secret seed (i + 1) ++ seed)

/-- RFC 5246, 5: `len` bytes of `PRF(secret, label, seed) = P_hash(secret, label + seed)`. -/
def Sha.prf (S : Sha) (secret label seed : Bytes) (len : Nat) : Bytes :=
  (S.pHash secret (label ++ seed) ((len + 31) / 32)).take len

/-- RFC 5246, 8.1: the master secret. -/
def Sha.masterSecret (S : Sha) (pms clientRandom serverRandom : Bytes) : Bytes :=
  S.prf pms (ascii "master secret") (clientRandom ++ serverRandom) 48

/-- RFC 7627, 4: the extended master secret. -/
def Sha.extendedMasterSecret (S : Sha) (pms sessionHash : Bytes) : Bytes :=
  S.prf pms (ascii "extended master secret") sessionHash 48

/-- RFC 5246, 6.3: the key block for AES-128-GCM, which has no MAC keys. -/
def Sha.keyBlock (S : Sha) (master clientRandom serverRandom : Bytes) : Bytes :=
  S.prf master (ascii "key expansion") (serverRandom ++ clientRandom) 40

/-- RFC 5246, 7.4.9: the verify data of the client. -/
def Sha.clientVerifyData (S : Sha) (master handshakeHash : Bytes) : Bytes :=
  S.prf master (ascii "client finished") handshakeHash 12

/-- RFC 5246, 7.4.9: the verify data of the server. -/
def Sha.serverVerifyData (S : Sha) (master handshakeHash : Bytes) : Bytes :=
  S.prf master (ascii "server finished") handshakeHash 12

end Tlsn.Hmac
