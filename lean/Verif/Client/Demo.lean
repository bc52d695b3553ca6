import Verif.Client.Conn

/-! # A connection that is used as an example -/

namespace Tlsn.Client

/-- A client for the server `srv`, which has the certificate `[1]`. -/
def demoCfg : ClientCfg :=
  { serverName := [0x73, 0x72, 0x76], sni := some [0x73, 0x72, 0x76], enableSni := true, alpn := [[0x68, 0x32]]
    maxFragmentSize := none, requestScts := true, verifySchemes := [0x0403, 0x0804]
    verifyCert := fun leaf _ name _ _ now => if leaf = [1] ∧ name = [0x73, 0x72, 0x76] ∧ now = 100 then .ok () else .error 1
    verifySig := fun message _ sig => if sig.sig = message.take 4 then .ok () else .error 2
    hasClientCerts := false, resolve := fun _ _ => none
    hash := fun b => (b.drop (b.length - 4)), dnsOk := fun _ => true }

/-- A backend that works, does not encrypt, and has 12 bytes of verify data. -/
def demoWorld : World where
  sessionId := fun _ => .ok (List.replicate 32 9)
  random := fun _ => .ok (List.replicate 32 5)
  keyShare := fun _ => .ok ⟨0x0017, [4, 1, 2]⟩
  now := fun _ => 100
  sign := fun _ _ _ => .ok []
  prepare := fun _ _ => .ok ()
  clientVd := fun _ _ => .ok (List.replicate 12 6)
  serverVd := fun _ _ => .ok (List.replicate 12 7)
  startTraffic := fun _ => .ok ()
  pushIn := fun _ _ => .ok ()
  pushOut := fun _ _ => .ok ()
  flush := fun _ => .ok ()
  nextIn := fun log =>
    .ok ((log.filterMap fun e => match e with | .pushIn m _ => some m | _ => none)[
      (log.filterMap fun e => match e with | .nextIn (.ok (some m)) => some m | _ => none).length]?)
  nextOut := fun log =>
    .ok ((log.filterMap fun e => match e with | .pushOut m _ => some m | _ => none)[
      (log.filterMap fun e => match e with | .nextOut (.ok (some m)) => some m | _ => none).length]?)
  close := fun _ => .ok ()

def hsRecord (ms : List HandshakeMessage) : Bytes := (⟨.handshake, .tls12, ms.flatMap (·.encode)⟩ : OpaqueMessage).encode

def demoKx : EcdheServerKeyExchange := ⟨0x0017, [4, 8, 9], ⟨0x0403, [5, 5, 5, 5]⟩⟩

/-- The server's first flight. -/
def demoFlight : Bytes := hsRecord [
  ⟨0x02, .serverHello ⟨.tls12, List.replicate 32 8, [], 0xc02b, 0, [.protocols [[0x68, 0x32]], .ecPointFormats [0]]⟩⟩,
  ⟨0x0b, .certificate [[1], [2]]⟩,
  ⟨0x0c, .serverKeyExchange (codecEcdheServerKeyExchange.encode demoKx)⟩,
  ⟨0x0e, .serverHelloDone⟩]

/-- The server's second flight, and application data. -/
def demoSecond : Bytes := [0x14, 3, 3, 0, 1, 1] ++ hsRecord [⟨0x14, .finished (List.replicate 12 7)⟩] ++ [0x17, 3, 3, 0, 2, 0x68, 0x69]

def demoCalls : List Call := [.start, .writePlaintext [1, 2, 3], .readTls demoFlight, .process 10, .readTls demoSecond, .process 10,
  .readPlaintext 100]

/-- The connection after the calls. -/
def demoRun (W : World) (calls : List Call) : Option (Conn × List (Call × CReply)) :=
  match Conn.new demoCfg with
  | .ok c => some (c.run demoCfg W calls)
  | .error _ => none

/-- The connection in the beginning. -/
def demoConn : Conn :=
  ⟨.ok .initial, ⟨Deframer.new, ⟨[], []⟩, {
      negotiated := none, encrypting := false, decrypting := false, suite := none, alpnProtocol := none, aligned := true
      maySend := false, mayReceive := false, sentFatalAlert := false, closeNotify := false, fragmenter := ⟨16384⟩
      received := VecBuf.new (some 0), sendable := VecBuf.new (some defaultBufferLimit)
      sendableTls := VecBuf.new (some defaultBufferLimit), log := [] }⟩⟩

theorem demoConn_new : Conn.new demoCfg = .ok demoConn := rfl

end Tlsn.Client
