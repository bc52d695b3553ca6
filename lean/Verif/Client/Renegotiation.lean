import Verif.Client.Demo

/-! # Messages of a handshake after the handshake -/

namespace Tlsn.Client

variable {cfg : ClientCfg}

/-- The alert with which a client declines to negotiate again: level warning, no_renegotiation (RFC 5246, section 7.2). -/
def noRenegotiation : OpaqueMessage := ⟨.alert, .tls12, [1, 100]⟩

theorem declined_main (W : World) (s : HState) (c : Common) (hr : c.mayReceive = true) (he : c.encrypting = true)
    (hm : 2 ≤ c.fragmenter.maxFrag) (hp : ∀ log, W.pushOut log noRenegotiation = .ok ()) (p : HandshakePayload) :
    processMain cfg W (.handshake ⟨0, p⟩) s c =
      ({ c with log := c.log ++ [.protect (.alert 1 100), .pushOut noRenegotiation (.ok ())] }, .ok s) := by
  have e2 : c.fragmenter.fragment (plainOf .tls12 (.alert 1 100)) = [noRenegotiation] := by
    unfold Fragmenter.fragment
    rw [if_pos (show (plainOf .tls12 (.alert 1 100)).payload.length ≤ _ from hm)]
    rfl
  have e3 : sendWarning W 0x64 c = ({ c with log := c.log ++ [.protect (.alert 1 100), .pushOut noRenegotiation (.ok ())] }, .ok ()) := by
    show sendMsg W .tls12 (.alert 1 100) c.encrypting c = _
    show (if c.encrypting = true then _ else _ : M Common Unit) c = _
    rw [if_pos he, e2]
    show (ask (W.pushOut · noRenegotiation) (.pushOut noRenegotiation) >>= fun _ => pushAll W []) { c with log := c.log ++ [.protect (.alert 1 100)] } = _
    show M.bind _ _ _ = _
    unfold M.bind ask
    simp only [hp, List.append_assoc]
    rfl
  show (if (c.mayReceive && isHelloRequest (.handshake ⟨0, p⟩)) = true then _ else _ : M Common HState) c = _
  rw [if_pos (by rw [hr]; rfl)]
  show M.bind _ _ _ = _
  unfold M.bind
  rw [e3]
  rfl

/-- C132: the server asks a connected client for another handshake.  The client gives its backend one alert to send, which
declines, and goes on as before: its state, its data and its buffers are the same. -/
theorem C132_declined (W : World) (s : HState) (io : Io) (hj : io.joiner = ⟨[], []⟩) (hr : io.common.mayReceive = true)
    (he : io.common.encrypting = true) (ha : io.common.aligned = true) (hm : 2 ≤ io.common.fragmenter.maxFrag) (version : ProtocolVersion)
    (hp : ∀ log, W.pushOut log noRenegotiation = .ok ()) :
    processPlain cfg W ⟨.handshake, version, [0, 0, 0, 0]⟩ s io =
      ({ io with common := { io.common with log := io.common.log ++ [.protect (.alert 1 100), .pushOut noRenegotiation (.ok ())] } }, .ok s) := by
  obtain ⟨d, j, c⟩ := io
  cases hj
  have e1 : (⟨[], []⟩ : Joiner HandshakeMessage).takeMessage (parseHandshake cfg.dnsOk) ⟨.handshake, version, [0, 0, 0, 0]⟩ =
      (⟨[⟨0, .helloRequest⟩], []⟩, some 1) := rfl
  have ha' : ({ c with aligned := true } : Common) = c := by
    obtain ⟨⟩ := c
    cases ha
    rfl
  unfold processPlain
  rw [if_pos rfl]
  unfold processHs
  rw [e1]
  show joinLoop cfg W [⟨0, .helloRequest⟩] s _ = _
  show M.bind _ _ _ = _
  have e3 := declined_main (cfg := cfg) W s c hr he hm hp .helloRequest
  show M.bind (lift (processMain cfg W (.handshake ⟨0, .helloRequest⟩) s)) (fun s => joinLoop cfg W [] s) ⟨d, ⟨[], []⟩, { c with aligned := true }⟩ = _
  unfold M.bind lift
  simp only [ha', e3]
  rfl

/-- C132: another message of a handshake ends a connected client's connection: the client fails, after it has given its backend a fatal
alert to send, and no data reaches the caller by it. -/
theorem C132_unexpected (W : World) (c : Common) (he : c.encrypting = true) (hm : 2 ≤ c.fragmenter.maxFrag) (m : HandshakeMessage)
    (ht : m.typ ≠ 0) : ∃ c' reply, processMain cfg W (.handshake m) .traffic c = (c', match reply with
        | .ok _ => .err (.inappropriate .handshake)
        | .failed code => .err (.backend code)
        | .dropped => .dropped
        | .panicked => .panicked) ∧ c'.received = c.received ∧
      c'.log = c.log ++ [.handle (.handshake m), .protect (.alert 2 10), .pushOut ⟨.alert, .tls12, [2, 10]⟩ reply] := by
  have e2 : c.fragmenter.fragment (plainOf .tls12 (.alert 2 10)) = [⟨.alert, .tls12, [2, 10]⟩] := by
    unfold Fragmenter.fragment
    rw [if_pos (show (plainOf .tls12 (.alert 2 10)).payload.length ≤ _ from hm)]
    rfl
  have e0 : processMain cfg W (.handshake m) .traffic c =
      abort W 0x0a (.inappropriate .handshake) { c with log := c.log ++ [.handle (.handshake m)] } := by
    show (if (c.mayReceive && isHelloRequest (.handshake m)) = true then _ else _ : M Common HState) c = _
    rw [if_neg (by simp [isHelloRequest, ht])]
    rfl
  have e3 : sendMsg W .tls12 (.alert 2 10) c.encrypting { c with log := c.log ++ [.handle (.handshake m)] } =
      (ask (W.pushOut · ⟨.alert, .tls12, [2, 10]⟩) (.pushOut ⟨.alert, .tls12, [2, 10]⟩) >>= fun _ => pushAll W [])
        { c with log := c.log ++ [.handle (.handshake m), .protect (.alert 2 10)] } := by
    show (if c.encrypting = true then _ else _ : M Common Unit) _ = _
    rw [if_pos he]
    show (note _ >>= fun _ => pushAll W (c.fragmenter.fragment (plainOf .tls12 (.alert 2 10)))) _ = _
    rw [e2]
    show pushAll W _ { c with log := c.log ++ [.handle (.handshake m)] ++ [.protect (.alert 2 10)] } = _
    rw [List.append_assoc]
    rfl
  have e4 : ∀ x : Common × Res Unit, sendMsg W .tls12 (.alert 2 10) c.encrypting { c with log := c.log ++ [.handle (.handshake m)] } = x →
      abort W 0x0a (α := HState) (.inappropriate .handshake) { c with log := c.log ++ [.handle (.handshake m)] } = match x with
        | (c', .ok _) => ({ c' with sentFatalAlert := true }, .err (.inappropriate .handshake))
        | (c', .err e) => (c', .err e)
        | (c', .dropped) => (c', .dropped)
        | (c', .panicked) => (c', .panicked) := by
    rintro ⟨c', r⟩ hx
    show M.bind (M.bind (sendMsg W .tls12 (.alert 2 10) c.encrypting) _) _ { c with log := c.log ++ [.handle (.handshake m)] } = _
    unfold M.bind
    simp only [hx]
    cases r <;> rfl
  rw [e0]
  have e5 : c.log ++ [.handle (.handshake m), .protect (.alert 2 10)] ++ [.pushOut ⟨.alert, .tls12, [2, 10]⟩
      (W.pushOut (c.log ++ [.handle (.handshake m), .protect (.alert 2 10)]) ⟨.alert, .tls12, [2, 10]⟩)] =
      c.log ++ [.handle (.handshake m), .protect (.alert 2 10), .pushOut ⟨.alert, .tls12, [2, 10]⟩
      (W.pushOut (c.log ++ [.handle (.handshake m), .protect (.alert 2 10)]) ⟨.alert, .tls12, [2, 10]⟩)] := by simp
  have e6 : sendMsg W .tls12 (.alert 2 10) c.encrypting { c with log := c.log ++ [.handle (.handshake m)] } =
      ({ c with log := c.log ++ [.handle (.handshake m), .protect (.alert 2 10), .pushOut ⟨.alert, .tls12, [2, 10]⟩
      (W.pushOut (c.log ++ [.handle (.handshake m), .protect (.alert 2 10)]) ⟨.alert, .tls12, [2, 10]⟩)] },
        match W.pushOut (c.log ++ [.handle (.handshake m), .protect (.alert 2 10)]) ⟨.alert, .tls12, [2, 10]⟩ with
        | .ok _ => .ok ()
        | .failed code => .err (.backend code)
        | .dropped => .dropped
        | .panicked => .panicked) := by
    rw [e3, ← e5]
    show M.bind _ _ _ = _
    unfold M.bind ask
    cases hr : W.pushOut (c.log ++ [.handle (.handshake m), .protect (.alert 2 10)]) ⟨.alert, .tls12, [2, 10]⟩ with
    | ok a => simp only [hr]; rfl
    | _ => simp only [hr]
  rw [e4 _ e6]
  cases hr : W.pushOut (c.log ++ [.handle (.handshake m), .protect (.alert 2 10)]) ⟨.alert, .tls12, [2, 10]⟩ with
  | ok a => exact ⟨_, .ok a, rfl, rfl, rfl⟩
  | failed code => exact ⟨_, .failed code, rfl, rfl, rfl⟩
  | dropped => exact ⟨_, .dropped, rfl, rfl, rfl⟩
  | panicked => exact ⟨_, .panicked, rfl, rfl, rfl⟩

/-- The connection of the demonstration after its handshake. -/
def demoDone : Conn := (demoConn.run demoCfg demoWorld demoCalls).1

set_option maxRecDepth 100000 in
/-- It meets the hypotheses of both theorems: it is connected, its queue of handshake messages is empty, it encrypts, and records
may be longer than an alert. -/
example : (demoDone.state matches .ok .traffic) ∧ demoDone.io.joiner.frames.isEmpty ∧ demoDone.io.joiner.buf = [] ∧ demoDone.io.common.mayReceive = true ∧
    demoDone.io.common.encrypting = true ∧ demoDone.io.common.aligned = true ∧ 2 ≤ demoDone.io.common.fragmenter.maxFrag ∧
    (demoWorld.pushOut [] noRenegotiation matches .ok _) := by
  decide +kernel

end Tlsn.Client
