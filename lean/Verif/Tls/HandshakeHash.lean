import Verif.Tls.Handshake

/-! # The handshake hash -/

namespace Tlsn

/-- crates/mpc-tls/src/client/hash_hs.rs:16-19 `HandshakeHashBuffer`. -/
structure HandshakeHashBuffer where
  buffer : Bytes
  clientAuthEnabled : Bool
  deriving DecidableEq, Repr

/-- crates/mpc-tls/src/client/hash_hs.rs:79-85 `HandshakeHash`.  The digest context is the bytes it has been given, `alg` is the hash function. -/
structure HandshakeHash where
  alg : Bytes → Bytes
  ctx : Bytes
  clientAuth : Option Bytes

/-- crates/mpc-tls/src/client/hash_hs.rs:32-37 `new`. -/
def HandshakeHashBuffer.new : HandshakeHashBuffer := ⟨[], false⟩

/-- crates/mpc-tls/src/client/hash_hs.rs:41-43 `set_client_auth_enabled`. -/
def HandshakeHashBuffer.setClientAuth (b : HandshakeHashBuffer) : HandshakeHashBuffer :=
  { b with clientAuthEnabled := true }

/-- crates/mpc-tls/src/client/hash_hs.rs:46-50 `add_message`. -/
def HandshakeHashBuffer.addMessage (b : HandshakeHashBuffer) (m : MessagePayload) : HandshakeHashBuffer :=
  match m with
  | .handshake hs => { b with buffer := b.buffer ++ hs.encode }
  | _ => b

/-- crates/mpc-tls/src/client/hash_hs.rs:59-69 `start_hash`. -/
def HandshakeHashBuffer.startHash (b : HandshakeHashBuffer) (alg : Bytes → Bytes) : HandshakeHash :=
  ⟨alg, b.buffer, if b.clientAuthEnabled then some b.buffer else none⟩

/-- crates/mpc-tls/src/client/hash_hs.rs:90-92 `abandon_client_auth`. -/
def HandshakeHash.abandonClientAuth (h : HandshakeHash) : HandshakeHash := { h with clientAuth := none }

/-- crates/mpc-tls/src/client/hash_hs.rs:104-112 `update_raw`. -/
def HandshakeHash.updateRaw (h : HandshakeHash) (buf : Bytes) : HandshakeHash :=
  { h with ctx := h.ctx ++ buf, clientAuth := h.clientAuth.map (· ++ buf) }

/-- crates/mpc-tls/src/client/hash_hs.rs:95-101 `add_message`. -/
def HandshakeHash.addMessage (h : HandshakeHash) (m : MessagePayload) : HandshakeHash :=
  match m with
  | .handshake hs => h.updateRaw hs.encode
  | _ => h

/-- crates/mpc-tls/src/client/hash_hs.rs:126-128 `get_current_hash`. -/
def HandshakeHash.currentHash (h : HandshakeHash) : Bytes := h.alg h.ctx

/-- crates/mpc-tls/src/client/hash_hs.rs:133-135 `take_handshake_buf`. -/
def HandshakeHash.takeHandshakeBuf (h : HandshakeHash) : HandshakeHash × Option Bytes :=
  ({ h with clientAuth := none }, h.clientAuth)

/-- crates/tls-core/src/msgs/handshake.rs:2309-2314 `build_handshake_hash`. -/
def buildHandshakeHash (hash : Bytes) : HandshakeMessage := ⟨0xfe, .messageHash hash⟩

/-- crates/mpc-tls/src/client/hash_hs.rs:114-123 `into_hrr_buffer`. -/
def HandshakeHash.intoHrrBuffer (h : HandshakeHash) : HandshakeHashBuffer :=
  ⟨(buildHandshakeHash h.currentHash).encode, h.clientAuth.isSome⟩

end Tlsn
