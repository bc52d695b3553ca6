import Verif.Proxy.ClientProps

/-!
# When a prover of the proxy mode that waits is polled again (C140)

As `Verif.Drive.Wake` for the MPC mode.
-/

namespace Tlsn.Proxy

open Tlsn.Drive (SockRead Sink)

variable {σ : Type}

/-- crates/tlsn/src/prover.rs:407-415: data of the application is there, but the client does not take any. -/
def ProxyDriver.wakesApp (d : ProxyDriver σ) : Bool := !d.appIn.isEmpty && !d.client.wantsWrite

/-- crates/tlsn/src/prover.rs:424-433: bytes were read from the socket. -/
def ProxyDriver.wakesSocket (e : Ready) (d : ProxyDriver σ) : Bool :=
  match e.socketRead with
  | .data b => !b.isEmpty && !d.serverClosed
  | _ => false

/-- crates/tlsn/src/prover.rs:437-448: the client has taken bytes of the server, or does not take any that are there. -/
def ProxyDriver.wakesServer (E : Engine σ) (e : Ready) (d : ProxyDriver σ) : Bool :=
  !d.fromServer.isEmpty &&
    if E.wantsRead d.client.conn then
      match d.client.readTls E (d.fromServer.take (e.serverGet + 1)) with
      | some (n, _) => decide (0 < n)
      | none => false
    else true

/-- crates/tlsn/src/prover.rs:462-471: there is room for bytes to the server, none were written, and the connection has some; `ww`
is `wants_write` of the connection (crates/tlsn/src/prover/client/proxy/mod.rs:133-135). -/
def ProxyDriver.wakesGive (E : Engine σ) (ww : σ → Bool) (e : Ready) (d : ProxyDriver σ) : Bool :=
  decide (0 < e.room) && match d.client.writeTls E e.room with
    | some (b, c) => b.isEmpty && ww c.conn
    | none => false

/-- Whether a poll wakes its own task: crates/tlsn/src/prover.rs:296-317, in the order of the calls; each only if there was no error
before.  The poll of the client (crates/tlsn/src/prover/client/proxy/mod.rs:202-297) does not. -/
def ProxyDriver.wakes (E : Engine σ) (ww : σ → Bool) (fin : Bytes → Nat → TlsBytes → Bool) (e : Ready) (d : ProxyDriver σ) : Bool :=
  let d1 := d.andThen (·.takeApp E e)
  let d2 := d1.andThen (·.takeSocket e)
  let d3 := d2.andThen (·.takeServer E e)
  let d4 := d3.andThen (·.pollClient E fin e)
  d.wakesApp || d1.wakesSocket e || d2.wakesServer E e || d4.wakesGive E ww e

/-- A connection which wants bytes of the server takes at least one.  `rustls` does: `wants_read` is false if its buffer is full. -/
def Engine.Eager (E : Engine σ) : Prop := ∀ c b n c', E.wantsRead c = true → b ≠ [] → E.readTls c b = some (n, c') → 0 < n

theorem fromServer_andThen {d : ProxyDriver σ} {f : ProxyDriver σ → ProxyDriver σ} (h : ∀ d, (f d).fromServer = d.fromServer) :
    (d.andThen f).fromServer = d.fromServer := by
  unfold ProxyDriver.andThen
  split
  · exact h d
  · rfl

theorem pollClient_fromServer (E : Engine σ) (fin : Bytes → Nat → TlsBytes → Bool) (e : Ready) (d : ProxyDriver σ) :
    (d.pollClient E fin e).fromServer = d.fromServer := by
  unfold ProxyDriver.pollClient
  repeat' split
  all_goals rfl

theorem giveServer_fromServer (E : Engine σ) (e : Ready) (d : ProxyDriver σ) : (d.giveServer E e).fromServer = d.fromServer := by
  unfold ProxyDriver.giveServer
  split <;> rfl

theorem giveSocket_fromServer (e : Ready) (d : ProxyDriver σ) : (d.giveSocket e).fromServer = d.fromServer := by
  unfold ProxyDriver.giveSocket
  split <;> rfl

theorem giveApp_fromServer (E : Engine σ) (e : Ready) (d : ProxyDriver σ) : (d.giveApp E e).fromServer = d.fromServer := by
  unfold ProxyDriver.giveApp
  repeat' split
  all_goals rfl

theorem close_fromServer (e : Ready) (d : ProxyDriver σ) : (d.close e).fromServer = d.fromServer := by
  unfold ProxyDriver.close
  repeat' split
  all_goals rfl

theorem takeApp_status (E : Engine σ) (e : Ready) (d : ProxyDriver σ) :
    (d.takeApp E e).serverClosed = d.serverClosed ∧ ((d.takeApp E e).status = d.status ∨ (d.takeApp E e).status = .failed) := by
  unfold ProxyDriver.takeApp
  repeat' split
  all_goals first | exact ⟨rfl, Or.inl rfl⟩ | exact ⟨rfl, Or.inr rfl⟩

theorem takeSocket_status (e : Ready) (d : ProxyDriver σ) :
    (d.takeSocket e).status = d.status ∨ (d.takeSocket e).status = .failed := by
  unfold ProxyDriver.takeSocket
  repeat' split
  all_goals first | exact Or.inl rfl | exact Or.inr rfl

/-- After a failure nothing is done. -/
theorem failed_andThen {d : ProxyDriver σ} (h : d.status = .failed) (f : ProxyDriver σ → ProxyDriver σ) : d.andThen f = d := by
  unfold ProxyDriver.andThen
  rw [if_neg (by rw [h]; decide)]

theorem running_andThen {d : ProxyDriver σ} (h : d.status = .running) (f : ProxyDriver σ → ProxyDriver σ) : d.andThen f = f d := by
  unfold ProxyDriver.andThen
  rw [if_pos h]

/-- The steps of a poll after the client has taken the bytes of the server. -/
def ProxyDriver.rest (E : Engine σ) (fin : Bytes → Nat → TlsBytes → Bool) (e : Ready) (d : ProxyDriver σ) : ProxyDriver σ :=
  ((((d.andThen (·.pollClient E fin e)).andThen (·.giveServer E e)).andThen (·.giveSocket e)).andThen (·.giveApp E e)).andThen
    (·.close e)

theorem rest_failed {E : Engine σ} {fin : Bytes → Nat → TlsBytes → Bool} {e : Ready} {d : ProxyDriver σ} (h : d.status = .failed) :
    d.rest E fin e = d := by
  unfold ProxyDriver.rest
  rw [failed_andThen h, failed_andThen h, failed_andThen h, failed_andThen h, failed_andThen h]

theorem rest_fromServer (E : Engine σ) (fin : Bytes → Nat → TlsBytes → Bool) (e : Ready) (d : ProxyDriver σ) :
    (d.rest E fin e).fromServer = d.fromServer := by
  unfold ProxyDriver.rest
  rw [fromServer_andThen (close_fromServer e), fromServer_andThen (giveApp_fromServer E e), fromServer_andThen (giveSocket_fromServer e),
    fromServer_andThen (giveServer_fromServer E e), fromServer_andThen (pollClient_fromServer E fin e)]

/-- **C140** If a poll of a prover of the proxy mode does not fail and does not wake its task, then the socket had nothing to read
or is at its end, all bytes that it has given are with the TLS connection, and the client took data of the application if there was
any.  Missing: data of the application that it did not take does not wake the task (`C140_proxy_left`). -/
theorem C140_proxy_quiet_partial (E : Engine σ) (hE : E.Eager) (ww : σ → Bool) (fin : Bytes → Nat → TlsBytes → Bool) (e : Ready)
    (d : ProxyDriver σ) (hr : d.status = .running) (hf : (d.poll E fin e).status ≠ .failed) (hw : d.wakes E ww fin e = false) :
    (e.socketRead = .pending ∨ e.socketRead = .eof ∨ e.socketRead = .data [] ∨ (d.poll E fin e).serverClosed = true) ∧
      (d.poll E fin e).fromServer = [] ∧ (d.appIn ≠ [] → d.client.wantsWrite = true) := by
  have hp : d.poll E fin e =
      (((d.andThen (·.takeApp E e)).andThen (·.takeSocket e)).andThen (·.takeServer E e)).rest E fin e := rfl
  have hsc : d.serverClosed = true → (d.poll E fin e).serverClosed = true := fun h => serverClosed_poll fin h
  rw [hp] at hf hsc ⊢
  unfold ProxyDriver.wakes at hw
  simp only [Bool.or_eq_false_iff] at hw
  obtain ⟨⟨⟨w1, w2⟩, w3⟩, -⟩ := hw
  rw [running_andThen hr] at hf hsc w2 w3 ⊢
  obtain ⟨t1, t2⟩ := takeApp_status E e d
  generalize d.takeApp E e = d1 at *
  have r1 : d1.status = .running := by
    rcases t2 with t2 | t2
    · rw [t2, hr]
    · rw [failed_andThen t2, failed_andThen t2, rest_failed t2] at hf
      exact absurd t2 hf
  rw [running_andThen r1] at hf hsc w3 ⊢
  have t3 := takeSocket_status e d1
  generalize hd2 : d1.takeSocket e = d2 at *
  have r2 : d2.status = .running := by
    rcases t3 with t3 | t3
    · rw [t3, r1]
    · rw [failed_andThen t3, rest_failed t3] at hf
      exact absurd t3 hf
  rw [running_andThen r2] at hf hsc ⊢
  refine ⟨?_, ?_, ?_⟩
  · cases hs : e.socketRead with
    | pending => exact Or.inl rfl
    | eof => exact Or.inr (Or.inl rfl)
    | data b =>
      unfold ProxyDriver.wakesSocket at w2
      rw [hs] at w2
      cases b with
      | nil => exact Or.inr (Or.inr (Or.inl rfl))
      | cons x xs =>
        have w2 : (true && !d1.serverClosed) = false := w2
        refine Or.inr (Or.inr (Or.inr (hsc ?_)))
        rw [← t1]
        cases hc : d1.serverClosed with
        | true => rfl
        | false => rw [hc] at w2; cases w2
    | failed =>
      unfold ProxyDriver.takeSocket at hd2
      rw [hs] at hd2
      rw [← hd2] at r2
      cases r2
  · rw [rest_fromServer]
    revert hf w3
    unfold ProxyDriver.takeServer ProxyDriver.wakesServer
    by_cases he : d2.fromServer = []
    · intro _ _
      rw [if_neg (fun h => h he)]
      split <;> exact he
    · rw [if_pos he]
      cases hw : E.wantsRead d2.client.conn with
      | false =>
        intro _ h
        cases hx : d2.fromServer with
        | nil => exact absurd hx he
        | cons x xs => rw [hx] at h; cases h
      | true =>
        simp only [↓reduceIte]
        cases hq : d2.client.readTls E (d2.fromServer.take (e.serverGet + 1)) with
        | none =>
          intro h
          exact absurd (by rw [rest_failed rfl]; rfl) h
        | some r =>
          obtain ⟨n, c⟩ := r
          intro _ h
          have hn : 0 < n := by
            unfold ProxyClient.readTls at hq
            cases hz : E.readTls d2.client.conn (d2.fromServer.take (e.serverGet + 1)) with
            | none => rw [hz] at hq; cases hq
            | some r =>
              rw [hz] at hq
              cases hq
              refine hE _ _ _ _ hw ?_ hz
              cases hx : d2.fromServer with
              | nil => exact absurd hx he
              | cons x xs => exact fun h => (nomatch h)
          cases hx : d2.fromServer with
          | nil => exact absurd hx he
          | cons x xs =>
            rw [hx] at h
            have h : decide (0 < n) = false := h
            exact absurd hn (of_decide_eq_false h)
  · intro ha
    unfold ProxyDriver.wakesApp at w1
    cases hx : d.appIn with
    | nil => exact absurd hx ha
    | cons x xs =>
      rw [hx] at w1
      cases hc : d.client.wantsWrite with
      | true => rfl
      | false => rw [hc] at w1; cases w1

/-! ## Data that waits -/

/-- The connection of `toyEngine` with a buffer of `limit` bytes; `rustls` has one of 64 KiB. -/
def limitEngine (limit : Nat) : Engine Toy :=
  { toyEngine with
    write := fun c b => some (min b.length (limit - c.outQ.length), { c with outQ := c.outQ ++ b.take (limit - c.outQ.length) }) }

/-- A connected prover, for whom the application has written `b`. -/
def waiting (b : Bytes) : ProxyDriver Toy :=
  { client := { conn := { started := true }, phase := .connected false, time := some 5, traffic := { tlsRecv := [5], appRecv := [5] } }
    appIn := b
    appOut := [5]
    appWrote := b
    socketIn := [5] }

/-- A poll in which everything is ready, but the socket gives nothing. -/
def ample (limit : Nat) (b : Bytes) : Ready :=
  { appGet := b.length, socketRead := .pending, serverGet := 9, now := 5, done := some true, room := limit,
    socketWrite := .takes limit, appSink := .takes 9, closeApp := some true, closeSocket := some true }

theorem waiting_run (limit : Nat) (b : Bytes) :
    ProxyDriver.run (limitEngine limit) (fun _ _ _ => true) {} [.poll (allReady (.data [5])), .poll (allReady .pending), .appWrite b] =
      waiting b := by
  simp (decide := true) [ProxyDriver.run, ProxyDriver.step, ProxyDriver.poll, ProxyDriver.andThen, ProxyDriver.takeApp,
    ProxyDriver.takeSocket, ProxyDriver.takeServer, ProxyDriver.pollClient, ProxyDriver.giveServer, ProxyDriver.giveSocket,
    ProxyDriver.giveApp, ProxyDriver.close, allReady, limitEngine, toyEngine, ProxyClient.poll, ProxyClient.pollHandshaking,
    ProxyClient.pollConnected, ProxyClient.readTls, ProxyClient.writeTls, ProxyClient.read, ProxyClient.wantsRead, waiting]

/-- **C140** The full statement is false: if the application writes more than the connection buffers, the rest waits after a poll
which does not wake its task, although everything that the connection had was sent and it would take more. -/
theorem C140_proxy_left (limit : Nat) (hl : 0 < limit) (b : Bytes) (hb : limit < b.length) :
    let before := ProxyDriver.run (limitEngine limit) (fun _ _ _ => true) {} [.poll (allReady (.data [5])), .poll (allReady .pending),
      .appWrite b]
    let after := before.poll (limitEngine limit) (fun _ _ _ => true) (ample limit b)
    before.wakes (limitEngine limit) (fun c => !c.outQ.isEmpty) (fun _ _ _ => true) (ample limit b) = false ∧
      after.status = .running ∧ after.client.phase = .connected false ∧ after.socketOut = b.take limit ∧ after.toServer = [] ∧
      after.client.conn.outQ = [] ∧ after.appIn = b.drop limit ∧ after.appIn ≠ [] ∧ after.client.wantsWrite = true := by
  have hne : b ≠ [] := by
    intro h
    rw [h] at hb
    exact absurd hb (Nat.not_lt_zero _)
  have hm : min b.length limit = limit := Nat.min_eq_right (Nat.le_of_lt hb)
  have hd : ¬b.length ≤ limit := Nat.not_le.2 hb
  have hz : limit ≠ 0 := Nat.ne_of_gt hl
  rw [waiting_run]
  simp (decide := true) [ProxyDriver.wakes, ProxyDriver.wakesApp, ProxyDriver.wakesSocket, ProxyDriver.wakesServer,
    ProxyDriver.wakesGive, ProxyDriver.poll, ProxyDriver.andThen, ProxyDriver.takeApp, ProxyDriver.takeSocket, ProxyDriver.takeServer,
    ProxyDriver.pollClient, ProxyDriver.giveServer, ProxyDriver.giveSocket, ProxyDriver.giveApp, ProxyDriver.close, ample, limitEngine,
    toyEngine, ProxyClient.poll, ProxyClient.pollConnected, ProxyClient.writeTls, ProxyClient.write, ProxyClient.read,
    ProxyClient.wantsRead, ProxyClient.wantsWrite, waiting, hne, hm, hd, hz, List.take_take]

/-- A poll to which `C140_proxy_quiet_partial` applies, in the middle of a session. -/
example :
    let d := ProxyDriver.run toyEngine (fun _ _ _ => true) {} [.poll (allReady (.data [5, 6])), .appWrite [7]]
    d.status = .running ∧ d.appIn = [7] ∧
      (d.poll toyEngine (fun _ _ _ => true) (allReady .pending)).status = .running ∧
      d.wakes toyEngine (fun c => !c.outQ.isEmpty) (fun _ _ _ => true) (allReady .pending) = false := by decide

/-- One that wakes the task: bytes were read. -/
example :
    (ProxyDriver.run toyEngine (fun _ _ _ => true) {} []).wakes toyEngine (fun c => !c.outQ.isEmpty) (fun _ _ _ => true)
      (allReady (.data [5, 6])) = true := by decide

theorem toyEngine_eager : toyEngine.Eager := by
  intro c b n c' _ hb h
  have h : some (b.length, { c with inQ := c.inQ ++ b }) = some (n, c') := h
  cases h
  exact List.length_pos_iff.2 hb

end Tlsn.Proxy
