import Verif.Base.Bytes

/-! # TLS enumerations -/

namespace Tlsn

/-- crates/tls-core/src/msgs/enums.rs:98-113 `ContentType` (and its copy
crates/core/src/transcript/tls.rs:208-223; the conversions crates/core/src/transcript/tls.rs:225-249 are one-to-one and are not
modelled separately). -/
inductive ContentType where
  | changeCipherSpec
  | alert
  | handshake
  | applicationData
  | heartbeat
  | unknown (b : Byte)
  deriving DecidableEq, Repr

/-- crates/tls-core/src/msgs/macros.rs:17-23 `get_u8`. -/
def ContentType.getU8 : ContentType → Byte
  | .changeCipherSpec => 0x14
  | .alert => 0x15
  | .handshake => 0x16
  | .applicationData => 0x17
  | .heartbeat => 0x18
  | .unknown b => b

/-- crates/tls-core/src/msgs/macros.rs:34-41 `From<u8>`, used by `read`. -/
def ContentType.ofU8 (b : Byte) : ContentType :=
  if b = 0x14 then .changeCipherSpec
  else if b = 0x15 then .alert
  else if b = 0x16 then .handshake
  else if b = 0x17 then .applicationData
  else if b = 0x18 then .heartbeat
  else .unknown b

/-- crates/tls-core/src/msgs/enums.rs:4-22 `ProtocolVersion`. -/
inductive ProtocolVersion where
  | sslv2
  | sslv3
  | tls10
  | tls11
  | tls12
  | tls13
  | dtls10
  | dtls12
  | unknown (v : UInt16)
  deriving DecidableEq, Repr

/-- crates/tls-core/src/msgs/macros.rs:57-63 `get_u16`. -/
def ProtocolVersion.getU16 : ProtocolVersion → UInt16
  | .sslv2 => 0x0200
  | .sslv3 => 0x0300
  | .tls10 => 0x0301
  | .tls11 => 0x0302
  | .tls12 => 0x0303
  | .tls13 => 0x0304
  | .dtls10 => 0xFEFF
  | .dtls12 => 0xFEFD
  | .unknown v => v

/-- crates/tls-core/src/msgs/macros.rs:82-89 `From<u16>`, used by `read`. -/
def ProtocolVersion.ofU16 (v : UInt16) : ProtocolVersion :=
  if v = 0x0200 then .sslv2
  else if v = 0x0300 then .sslv3
  else if v = 0x0301 then .tls10
  else if v = 0x0302 then .tls11
  else if v = 0x0303 then .tls12
  else if v = 0x0304 then .tls13
  else if v = 0xFEFF then .dtls10
  else if v = 0xFEFD then .dtls12
  else .unknown v

theorem ContentType.getU8_ofU8 (b : Byte) : (ContentType.ofU8 b).getU8 = b := by
  simp only [ContentType.ofU8]
  split
  · next h => rw [h]; rfl
  split
  · next h => rw [h]; rfl
  split
  · next h => rw [h]; rfl
  split
  · next h => rw [h]; rfl
  split
  · next h => rw [h]; rfl
  rfl

theorem ProtocolVersion.getU16_ofU16 (v : UInt16) : (ProtocolVersion.ofU16 v).getU16 = v := by
  simp only [ProtocolVersion.ofU16]
  repeat' split
  all_goals first | rfl | (next h => rw [h]; rfl)

end Tlsn
