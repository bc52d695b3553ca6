import Verif.Proxy.ClientProps

/-!
# What the prover of the proxy mode asks of its TLS connection (C141)

The connection is instrumented: it keeps a list of the calls that send something.
-/

namespace Tlsn.Proxy

open Tlsn.Drive (SockRead Sink)

variable {σ : Type}

/-- A call that makes the TLS connection send something: application data that it took, or the closing alert. -/
inductive SendCall where
  | data (b : Bytes)
  | closeNotify
  deriving DecidableEq, Repr

/-- The same connection with a list of these calls.  An instrument of the specification; the calls are those of
crates/tlsn/src/prover/client/proxy/mod.rs:181-186 and crates/tlsn/src/prover/client/proxy/mod.rs:264-267. -/
def Engine.logged (E : Engine σ) : Engine (σ × List SendCall) where
  readTls c b := (E.readTls c.1 b).map fun r => (r.1, r.2, c.2)
  writeTls c n := (E.writeTls c.1 n).map fun r => (r.1, r.2, c.2)
  read c n := (E.read c.1 n).map fun r => (r.1, r.2, c.2)
  write c b := (E.write c.1 b).map fun r => (r.1, r.2, c.2 ++ [.data (b.take r.1)])
  process c := (E.process c.1).map fun r => (r, c.2)
  isHandshaking c := E.isHandshaking c.1
  wantsRead c := E.wantsRead c.1
  closeNotify c := (E.closeNotify c.1, c.2 ++ [.closeNotify])
  masterSecret c := E.masterSecret c.1

theorem logged_readTls (E : Engine σ) (c : σ × List SendCall) (b : Bytes) :
    E.logged.readTls c b = (E.readTls c.1 b).map fun r => (r.1, r.2, c.2) := rfl

theorem logged_writeTls (E : Engine σ) (c : σ × List SendCall) (n : Nat) :
    E.logged.writeTls c n = (E.writeTls c.1 n).map fun r => (r.1, r.2, c.2) := rfl

theorem logged_read (E : Engine σ) (c : σ × List SendCall) (n : Nat) :
    E.logged.read c n = (E.read c.1 n).map fun r => (r.1, r.2, c.2) := rfl

theorem logged_write (E : Engine σ) (c : σ × List SendCall) (b : Bytes) :
    E.logged.write c b = (E.write c.1 b).map fun r => (r.1, r.2, c.2 ++ [.data (b.take r.1)]) := rfl

/-- The invariant. -/
structure AlertInv (d : ProxyDriver (σ × List SendCall)) : Prop where
  closed : d.client.clientClosed = true → d.appClosed = true ∧ d.appIn = []
  calls : ∃ ws : List Bytes, ws.flatten ++ d.appIn = d.appWrote ∧
    (d.client.conn.2 = ws.map .data ∨
      d.client.conn.2 = ws.map .data ++ [.closeNotify] ∧ d.client.clientClosed = true ∧
        d.client.phase ≠ .init ∧ d.client.phase ≠ .handshaking ∧ d.client.phase ≠ .connected false)

theorem AlertInv.keep {d d' : ProxyDriver (σ × List SendCall)} (h : AlertInv d) (h1 : d'.client.clientClosed = d.client.clientClosed)
    (h2 : d'.appClosed = d.appClosed) (h3 : d'.appIn = d.appIn) (h4 : d'.appWrote = d.appWrote)
    (h5 : d'.client.conn.2 = d.client.conn.2) (h6 : d'.client.phase = d.client.phase) : AlertInv d' := by
  obtain ⟨a, b⟩ := h
  refine ⟨?_, ?_⟩
  · rw [h1, h2, h3]; exact a
  · rw [h1, h3, h4, h5, h6]; exact b

theorem AlertInv.andThen {d : ProxyDriver (σ × List SendCall)} (h : AlertInv d)
    {f : ProxyDriver (σ × List SendCall) → ProxyDriver (σ × List SendCall)}
    (hf : ∀ d, AlertInv d → AlertInv (f d)) : AlertInv (d.andThen f) := by
  unfold ProxyDriver.andThen
  split
  · exact hf d h
  · exact h

theorem alert_takeApp {E : Engine σ} (hE : E.Lawful) (e : Ready) (d : ProxyDriver (σ × List SendCall)) (h : AlertInv d) :
    AlertInv (d.takeApp E.logged e) := by
  unfold ProxyDriver.takeApp
  split
  · split
    · rename_i hw
      have hc : d.client.clientClosed = false := by
        unfold ProxyClient.wantsWrite at hw
        simp only [Bool.and_eq_true, Bool.not_eq_true'] at hw
        exact hw.2
      unfold ProxyClient.write
      rw [logged_write]
      cases hw : E.write d.client.conn.1 (d.appIn.take (e.appGet + 1)) with
      | none => exact h.keep rfl rfl rfl rfl rfl rfl
      | some r =>
        obtain ⟨n, conn⟩ := r
        have hn := hE.write _ _ _ _ hw
        obtain ⟨a, ws, b, c⟩ := h
        refine ⟨fun h => ?_, ws ++ [(d.appIn.take (e.appGet + 1)).take n], ?_, Or.inl ?_⟩
        · have h : d.client.clientClosed = true := h
          rw [hc] at h; cases h
        · show (ws ++ [(d.appIn.take (e.appGet + 1)).take n]).flatten ++ d.appIn.drop n = d.appWrote
          rw [List.flatten_append, List.append_assoc, ← b, List.flatten_singleton, List.take_take,
            Nat.min_eq_left (Nat.le_trans hn (List.length_take_le _ _)), List.take_append_drop]
        · rcases c with c | ⟨-, c, -⟩
          · show d.client.conn.2 ++ [SendCall.data _] = _
            rw [c, List.map_append]; rfl
          · rw [hc] at c; cases c
    · exact h
  · rename_i hne
    have hne : d.appIn = [] := Classical.not_not.1 hne
    split
    · rename_i hcl
      simp only [Bool.and_eq_true] at hcl
      obtain ⟨-, ws, b, c⟩ := h
      refine ⟨fun _ => ⟨hcl.1.1, hne⟩, ws, b, ?_⟩
      rcases c with c | ⟨c, -, c'⟩
      · exact Or.inl c
      · exact Or.inr ⟨c, rfl, c'⟩
    · exact h

theorem alert_takeSocket (e : Ready) (d : ProxyDriver (σ × List SendCall)) (h : AlertInv d) : AlertInv (d.takeSocket e) := by
  unfold ProxyDriver.takeSocket
  split
  · exact h
  · exact h.keep rfl rfl rfl rfl rfl rfl
  · split
    · exact h
    · exact h.keep rfl rfl rfl rfl rfl rfl
  · exact h.keep rfl rfl rfl rfl rfl rfl

theorem alert_takeServer {E : Engine σ} (e : Ready) (d : ProxyDriver (σ × List SendCall)) (h : AlertInv d) :
    AlertInv (d.takeServer E.logged e) := by
  unfold ProxyDriver.takeServer
  split
  · split
    · unfold ProxyClient.readTls
      rw [logged_readTls]
      cases E.readTls d.client.conn.1 (d.fromServer.take (e.serverGet + 1)) <;> exact h.keep rfl rfl rfl rfl rfl rfl
    · exact h
  · split <;> exact h.keep rfl rfl rfl rfl rfl rfl

theorem alert_giveServer {E : Engine σ} (e : Ready) (d : ProxyDriver (σ × List SendCall)) (h : AlertInv d) :
    AlertInv (d.giveServer E.logged e) := by
  unfold ProxyDriver.giveServer ProxyClient.writeTls
  rw [logged_writeTls]
  cases E.writeTls d.client.conn.1 e.room <;> exact h.keep rfl rfl rfl rfl rfl rfl

theorem alert_giveSocket (e : Ready) (d : ProxyDriver (σ × List SendCall)) (h : AlertInv d) : AlertInv (d.giveSocket e) := by
  unfold ProxyDriver.giveSocket
  split <;> exact h.keep rfl rfl rfl rfl rfl rfl

theorem alert_giveApp {E : Engine σ} (e : Ready) (d : ProxyDriver (σ × List SendCall)) (h : AlertInv d) :
    AlertInv (d.giveApp E.logged e) := by
  unfold ProxyDriver.giveApp
  split
  · rename_i room _
    split
    · unfold ProxyClient.read
      rw [logged_read]
      cases E.read d.client.conn.1 room <;> exact h.keep rfl rfl rfl rfl rfl rfl
    · exact h
  · exact h.keep rfl rfl rfl rfl rfl rfl
  · exact h

theorem alert_close (e : Ready) (d : ProxyDriver (σ × List SendCall)) (h : AlertInv d) : AlertInv (d.close e) := by
  unfold ProxyDriver.close
  repeat' split
  all_goals exact h.keep rfl rfl rfl rfl rfl rfl

/-- What a poll of the client may do to the calls. -/
def AlertStep (c c' : ProxyClient (σ × List SendCall)) : Prop :=
  c'.clientClosed = c.clientClosed ∧
    (c'.conn.2 = c.conn.2 ∧ (c.phase = .init ∨ c.phase = .handshaking ∨ c.phase = .connected false ∨
        c'.phase ≠ .init ∧ c'.phase ≠ .handshaking ∧ c'.phase ≠ .connected false) ∨
      c'.conn.2 = c.conn.2 ++ [.closeNotify] ∧ c.clientClosed = true ∧
        (c.phase = .init ∨ c.phase = .handshaking ∨ c.phase = .connected false) ∧
        c'.phase ≠ .init ∧ c'.phase ≠ .handshaking ∧ c'.phase ≠ .connected false)

theorem alert_pollFinalizing (fin : Bytes → Nat → TlsBytes → Bool) (done : Option Bool) (ms : Bytes) (time : Nat) (t : TlsBytes)
    (c : ProxyClient (σ × List SendCall)) :
    (c.pollFinalizing fin done ms time t).1.clientClosed = c.clientClosed ∧
      (c.pollFinalizing fin done ms time t).1.conn = c.conn ∧ (c.pollFinalizing fin done ms time t).1.phase ≠ .init ∧
      (c.pollFinalizing fin done ms time t).1.phase ≠ .handshaking ∧
      (c.pollFinalizing fin done ms time t).1.phase ≠ .connected false := by
  unfold ProxyClient.pollFinalizing
  repeat' split
  all_goals exact ⟨rfl, rfl, fun h => (nomatch h), fun h => (nomatch h), fun h => (nomatch h)⟩

theorem alert_pollConnected (E : Engine σ) (fin : Bytes → Nat → TlsBytes → Bool) (done : Option Bool) (b : Bool)
    (c c0 : ProxyClient (σ × List SendCall)) (h1 : c0.clientClosed = c.clientClosed) (h2 : c0.conn.2 = c.conn.2)
    (hb : b = true ∧ c0.phase = .connected true ∨
      b = false ∧ (c0.phase = .init ∨ c0.phase = .handshaking ∨ c0.phase = .connected false)) :
    AlertStep c0 (c.pollConnected E.logged fin done b).1 := by
  unfold AlertStep ProxyClient.pollConnected
  rw [h1, h2]
  show _ ∧ _
  cases hp : E.process c.conn.1 with
  | none =>
    have hp' : E.logged.process c.conn = none := by show (E.process c.conn.1).map _ = none; rw [hp]; rfl
    rw [hp']
    exact ⟨rfl, Or.inl ⟨rfl, Or.inr (Or.inr (Or.inr ⟨fun h => (nomatch h), fun h => (nomatch h), fun h => (nomatch h)⟩))⟩⟩
  | some conn =>
    have hp' : E.logged.process c.conn = some (conn, c.conn.2) := by show (E.process c.conn.1).map _ = _; rw [hp]; rfl
    rw [hp']
    dsimp only
    split
    · split
      · exact ⟨rfl, Or.inl ⟨rfl, Or.inr (Or.inr (Or.inr ⟨fun h => (nomatch h), fun h => (nomatch h), fun h => (nomatch h)⟩))⟩⟩
      · split
        · exact ⟨rfl, Or.inl ⟨rfl, Or.inr (Or.inr (Or.inr ⟨fun h => (nomatch h), fun h => (nomatch h), fun h => (nomatch h)⟩))⟩⟩
        · rename_i time _
          obtain ⟨a1, a2, a3⟩ := alert_pollFinalizing fin done (E.logged.masterSecret (conn, c.conn.2)) time c.traffic
            { c with conn := (conn, c.conn.2), traffic := {} }
          exact ⟨a1, Or.inl ⟨by rw [a2], Or.inr (Or.inr (Or.inr a3))⟩⟩
    · split
      · rename_i hc
        simp only [Bool.and_eq_true, Bool.not_eq_true'] at hc
        obtain ⟨hc, hb'⟩ := hc
        rcases hb with ⟨hb, -⟩ | ⟨-, hb⟩
        · rw [hb'] at hb; cases hb
        · cases hq : E.process (E.closeNotify conn) with
          | none =>
            have hq' : E.logged.process (E.logged.closeNotify (conn, c.conn.2)) = none := by
              show (E.process (E.closeNotify conn)).map _ = _; rw [hq]; rfl
            rw [hq']
            exact ⟨rfl, Or.inr ⟨rfl, hc, hb, fun h => (nomatch h), fun h => (nomatch h), fun h => (nomatch h)⟩⟩
          | some conn2 =>
            have hq' : E.logged.process (E.logged.closeNotify (conn, c.conn.2)) = some (conn2, c.conn.2 ++ [.closeNotify]) := by
              show (E.process (E.closeNotify conn)).map _ = _; rw [hq]; rfl
            rw [hq']
            exact ⟨rfl, Or.inr ⟨rfl, hc, hb, fun h => (nomatch h), fun h => (nomatch h), fun h => (nomatch h)⟩⟩
      · refine ⟨rfl, Or.inl ⟨rfl, ?_⟩⟩
        rcases hb with ⟨hb, -⟩ | ⟨-, hb⟩
        · subst hb
          exact Or.inr (Or.inr (Or.inr ⟨fun h => (nomatch h), fun h => (nomatch h), fun h => (nomatch h)⟩))
        · rcases hb with hb | hb | hb
          · exact Or.inl hb
          · exact Or.inr (Or.inl hb)
          · exact Or.inr (Or.inr (Or.inl hb))

theorem alert_pollHandshaking (E : Engine σ) (fin : Bytes → Nat → TlsBytes → Bool) (done : Option Bool) (now : Nat)
    (c c0 : ProxyClient (σ × List SendCall)) (h1 : c0.clientClosed = c.clientClosed) (h2 : c0.conn.2 = c.conn.2)
    (hb : c0.phase = .init ∨ c0.phase = .handshaking) :
    AlertStep c0 (c.pollHandshaking E.logged fin done now).1 := by
  have hb' : c0.phase = .init ∨ c0.phase = .handshaking ∨ c0.phase = .connected false := by
    rcases hb with hb | hb
    · exact Or.inl hb
    · exact Or.inr (Or.inl hb)
  unfold ProxyClient.pollHandshaking
  cases hp : E.process c.conn.1 with
  | none =>
    have hp' : E.logged.process c.conn = none := by show (E.process c.conn.1).map _ = none; rw [hp]; rfl
    rw [hp']
    exact ⟨h1.symm, Or.inl ⟨h2.symm, Or.inr (Or.inr (Or.inr ⟨fun h => (nomatch h), fun h => (nomatch h), fun h => (nomatch h)⟩))⟩⟩
  | some conn =>
    have hp' : E.logged.process c.conn = some (conn, c.conn.2) := by show (E.process c.conn.1).map _ = _; rw [hp]; rfl
    rw [hp']
    dsimp only
    split
    · refine ⟨h1.symm, Or.inl ⟨h2.symm, ?_⟩⟩
      rcases hb with hb | hb
      · exact Or.inl hb
      · exact Or.inr (Or.inl hb)
    · exact alert_pollConnected E fin done false _ c0 h1 h2 (Or.inr ⟨rfl, hb'⟩)

theorem alert_poll (E : Engine σ) (fin : Bytes → Nat → TlsBytes → Bool) (done : Option Bool) (now : Nat)
    (c : ProxyClient (σ × List SendCall)) : AlertStep c (c.poll E.logged fin done now).1 := by
  unfold ProxyClient.poll
  split
  · rename_i hp
    exact alert_pollHandshaking E fin done now _ c rfl rfl (Or.inl hp)
  · rename_i hp
    exact alert_pollHandshaking E fin done now _ c rfl rfl (Or.inr hp)
  · rename_i sent hp
    refine alert_pollConnected E fin done sent _ c rfl rfl ?_
    cases sent
    · exact Or.inr ⟨rfl, Or.inr (Or.inr hp)⟩
    · exact Or.inl ⟨rfl, hp⟩
  · rename_i ms time t hp
    obtain ⟨a1, a2, a3⟩ := alert_pollFinalizing fin done ms time t c
    exact ⟨a1, Or.inl ⟨by rw [a2], Or.inr (Or.inr (Or.inr a3))⟩⟩
  · rename_i hp
    exact ⟨rfl, Or.inl ⟨rfl, Or.inr (Or.inr (Or.inr ⟨by rw [hp]; exact fun h => (nomatch h), by rw [hp]; exact fun h => (nomatch h),
      by rw [hp]; exact fun h => (nomatch h)⟩))⟩⟩

theorem AlertInv.step {d d' : ProxyDriver (σ × List SendCall)} (h : AlertInv d) (hs : AlertStep d.client d'.client)
    (h2 : d'.appClosed = d.appClosed) (h3 : d'.appIn = d.appIn) (h4 : d'.appWrote = d.appWrote) : AlertInv d' := by
  obtain ⟨a, ws, b, c⟩ := h
  obtain ⟨s1, s2⟩ := hs
  refine ⟨?_, ws, ?_, ?_⟩
  · rw [s1, h2, h3]; exact a
  · rw [h3, h4]; exact b
  · rw [s1]
    rcases s2 with ⟨s2, s3⟩ | ⟨s2, s3, s4, s5⟩
    · rw [s2]
      rcases c with c | ⟨c1, c2, c3, c4, c5⟩
      · exact Or.inl c
      · refine Or.inr ⟨c1, c2, ?_⟩
        rcases s3 with s3 | s3 | s3 | s3
        · exact absurd s3 c3
        · exact absurd s3 c4
        · exact absurd s3 c5
        · exact s3
    · rw [s2]
      rcases c with c | ⟨c1, c2, c3, c4, c5⟩
      · exact Or.inr ⟨by rw [c], s3, s5⟩
      · rcases s4 with s4 | s4 | s4
        · exact absurd s4 c3
        · exact absurd s4 c4
        · exact absurd s4 c5

theorem alert_pollClient {E : Engine σ} {fin : Bytes → Nat → TlsBytes → Bool} (e : Ready) (d : ProxyDriver (σ × List SendCall))
    (h : AlertInv d) : AlertInv (d.pollClient E.logged fin e) := by
  unfold ProxyDriver.pollClient
  split
  · exact h
  · have hs := alert_poll E fin e.done e.now d.client
    revert hs
    rcases d.client.poll E.logged fin e.done e.now with ⟨c, r⟩
    intro hs
    cases r <;> exact h.step hs rfl rfl rfl

theorem alert_step {E : Engine σ} (hE : E.Lawful) (fin : Bytes → Nat → TlsBytes → Bool) (d : ProxyDriver (σ × List SendCall))
    (a : ProxyAct) (h : AlertInv d) : AlertInv (ProxyDriver.step E.logged fin d a) := by
  unfold ProxyDriver.step
  cases a with
  | poll e =>
    dsimp only
    unfold ProxyDriver.poll
    exact (((((((h.andThen (alert_takeApp hE e)).andThen (alert_takeSocket e)).andThen (alert_takeServer e)).andThen
      (alert_pollClient e)).andThen (alert_giveServer e)).andThen (alert_giveSocket e)).andThen (alert_giveApp e)).andThen
      (alert_close e)
  | appWrite b =>
    dsimp only
    split
    · exact h
    · rename_i hc
      obtain ⟨a, ws, b', c⟩ := h
      exact ⟨fun hcc => absurd (a hcc).1 hc, ws, by show ws.flatten ++ (d.appIn ++ b) = d.appWrote ++ b; rw [← b', List.append_assoc], c⟩
  | appClose =>
    obtain ⟨a, ws, b', c⟩ := h
    exact ⟨fun hcc => ⟨rfl, (a hcc).2⟩, ws, b', c⟩
  | appRead n => exact h.keep rfl rfl rfl rfl rfl rfl

theorem alert_run {E : Engine σ} (hE : E.Lawful) (fin : Bytes → Nat → TlsBytes → Bool) (conn : σ) (acts : List ProxyAct) :
    AlertInv (ProxyDriver.run E.logged fin (conn, []) acts) := by
  unfold ProxyDriver.run
  have h0 : AlertInv ({ client := { conn := (conn, []) } } : ProxyDriver (σ × List SendCall)) :=
    ⟨fun h => (nomatch h), [], rfl, Or.inl rfl⟩
  generalize ({ client := { conn := (conn, []) } } : ProxyDriver (σ × List SendCall)) = d0 at h0
  induction acts generalizing d0 with
  | nil => exact h0
  | cons a as ih => exact ih _ (alert_step hE fin d0 a h0)

/-- **C141** In every history the TLS connection of the proxy mode was asked to send what the application wrote, in order and
without a gap, and what it was not asked to send waits.  The closing alert is asked for at most once, only after the application
has closed its side and all its data was taken, and nothing is sent after it.  This holds after errors too. -/
theorem C141_alert (E : Engine σ) (hE : E.Lawful) (fin : Bytes → Nat → TlsBytes → Bool) (conn : σ) (acts : List ProxyAct) :
    let d := ProxyDriver.run E.logged fin (conn, []) acts
    ∃ ws : List Bytes,
      d.client.conn.2 = ws.map .data ∧ ws.flatten ++ d.appIn = d.appWrote ∨
      d.client.conn.2 = ws.map .data ++ [.closeNotify] ∧ ws.flatten = d.appWrote ∧ d.appClosed = true := by
  intro d
  obtain ⟨a, ws, b, c⟩ := alert_run hE fin conn acts
  refine ⟨ws, ?_⟩
  rcases c with c | ⟨c1, c2, -⟩
  · exact Or.inl ⟨c, b⟩
  · obtain ⟨a1, a2⟩ := a c2
    rw [a2, List.append_nil] at b
    exact Or.inr ⟨c1, b, a1⟩

/-! ## The instrument changes nothing -/

/-- The client of crates/tlsn/src/prover/client/proxy/mod.rs:36-46 without the list. -/
def ProxyClient.forget (c : ProxyClient (σ × List SendCall)) : ProxyClient σ :=
  { conn := c.conn.1, time := c.time, traffic := c.traffic, clientClosed := c.clientClosed, serverClosed := c.serverClosed,
    phase := c.phase }

/-- The prover of crates/tlsn/src/prover/state.rs:35-50 without the list. -/
def ProxyDriver.forget (d : ProxyDriver (σ × List SendCall)) : ProxyDriver σ :=
  { client := d.client.forget, output := d.output, appIn := d.appIn, appClosed := d.appClosed, appOut := d.appOut,
    fromServer := d.fromServer, toServer := d.toServer, clientClosed := d.clientClosed, serverClosed := d.serverClosed,
    status := d.status, final := d.final, appWrote := d.appWrote, appRead := d.appRead, socketIn := d.socketIn,
    socketOut := d.socketOut }

theorem forget_andThen {d : ProxyDriver (σ × List SendCall)} {f : ProxyDriver (σ × List SendCall) → ProxyDriver (σ × List SendCall)}
    {g : ProxyDriver σ → ProxyDriver σ} (h : ∀ d : ProxyDriver (σ × List SendCall), (f d).forget = g d.forget) :
    (d.andThen f).forget = d.forget.andThen g := by
  unfold ProxyDriver.andThen
  show (if d.status = .running then f d else d).forget = if d.status = .running then g d.forget else d.forget
  split
  · exact h d
  · rfl

theorem forget_takeApp (E : Engine σ) (e : Ready) (d : ProxyDriver (σ × List SendCall)) :
    (d.takeApp E.logged e).forget = d.forget.takeApp E e := by
  unfold ProxyDriver.takeApp
  show _ = if d.appIn ≠ [] then if d.client.wantsWrite then _ else _ else if d.appClosed && !d.clientClosed && !d.serverClosed then _ else _
  split
  · split
    · unfold ProxyClient.write
      rw [logged_write]
      show _ = (match (match E.write d.client.conn.1 (d.appIn.take (e.appGet + 1)) with
        | none => none | some (n, conn) => some (n, _) : Option (Nat × ProxyClient σ)) with | none => _ | some (n, c) => _)
      cases E.write d.client.conn.1 (d.appIn.take (e.appGet + 1)) <;> rfl
    · rfl
  · split <;> rfl

theorem forget_takeSocket (e : Ready) (d : ProxyDriver (σ × List SendCall)) :
    (d.takeSocket e).forget = d.forget.takeSocket e := by
  unfold ProxyDriver.takeSocket
  cases e.socketRead with
  | data b =>
    dsimp only
    show _ = if d.serverClosed then _ else _
    split <;> rfl
  | _ => rfl

theorem forget_takeServer (E : Engine σ) (e : Ready) (d : ProxyDriver (σ × List SendCall)) :
    (d.takeServer E.logged e).forget = d.forget.takeServer E e := by
  unfold ProxyDriver.takeServer
  show (if d.fromServer ≠ [] then if E.wantsRead d.client.conn.1 then _ else _ else if d.serverClosed then _ else _ :
    ProxyDriver (σ × List SendCall)).forget = if d.fromServer ≠ [] then if E.wantsRead d.client.conn.1 then _ else _ else if d.serverClosed then _ else _
  split
  · split
    · unfold ProxyClient.readTls
      rw [logged_readTls]
      show _ = (match (match E.readTls d.client.conn.1 (d.fromServer.take (e.serverGet + 1)) with
        | none => none | some (n, conn) => some (n, _) : Option (Nat × ProxyClient σ)) with | none => _ | some (n, c) => _)
      cases E.readTls d.client.conn.1 (d.fromServer.take (e.serverGet + 1)) <;> rfl
    · rfl
  · split <;> rfl

theorem forget_giveServer (E : Engine σ) (e : Ready) (d : ProxyDriver (σ × List SendCall)) :
    (d.giveServer E.logged e).forget = d.forget.giveServer E e := by
  unfold ProxyDriver.giveServer ProxyClient.writeTls
  rw [logged_writeTls]
  show _ = (match (match E.writeTls d.client.conn.1 e.room with
    | none => none | some (n, conn) => some (n, _) : Option (Bytes × ProxyClient σ)) with | none => _ | some (n, c) => _)
  cases E.writeTls d.client.conn.1 e.room <;> rfl

theorem forget_giveSocket (e : Ready) (d : ProxyDriver (σ × List SendCall)) :
    (d.giveSocket e).forget = d.forget.giveSocket e := by
  unfold ProxyDriver.giveSocket
  cases e.socketWrite <;> rfl

theorem forget_giveApp (E : Engine σ) (e : Ready) (d : ProxyDriver (σ × List SendCall)) :
    (d.giveApp E.logged e).forget = d.forget.giveApp E e := by
  unfold ProxyDriver.giveApp
  cases e.appSink with
  | takes room =>
    dsimp only
    show _ = if d.client.wantsRead then _ else _
    split
    · unfold ProxyClient.read
      rw [logged_read]
      show _ = (match (match E.read d.client.conn.1 room with
        | none => none | some (n, conn) => some (n, _) : Option (Bytes × ProxyClient σ)) with | none => _ | some (n, c) => _)
      cases E.read d.client.conn.1 room <;> rfl
    · rfl
  | _ => rfl

theorem forget_close (e : Ready) (d : ProxyDriver (σ × List SendCall)) : (d.close e).forget = d.forget.close e := by
  unfold ProxyDriver.close
  show _ = if d.serverClosed && d.output.isSome then _ else _
  split
  · rcases e.closeApp with _ | _ | _
    · rfl
    · rfl
    · rcases e.closeSocket with _ | _ | _ <;> rfl
  · rfl

theorem forget_pollFinalizing (fin : Bytes → Nat → TlsBytes → Bool) (done : Option Bool) (ms : Bytes) (time : Nat) (t : TlsBytes)
    (c : ProxyClient (σ × List SendCall)) :
    c.forget.pollFinalizing fin done ms time t =
      ((c.pollFinalizing fin done ms time t).1.forget, (c.pollFinalizing fin done ms time t).2) := by
  unfold ProxyClient.pollFinalizing
  rcases done with _ | _ | _
  · rfl
  · rfl
  · dsimp only
    split <;> rfl

theorem logged_process_eq (E : Engine σ) (c : σ × List SendCall) : E.logged.process c = (E.process c.1).map fun r => (r, c.2) := rfl

theorem forget_pollConnected (E : Engine σ) (fin : Bytes → Nat → TlsBytes → Bool) (done : Option Bool) (b : Bool)
    (c : ProxyClient (σ × List SendCall)) :
    c.forget.pollConnected E fin done b =
      ((c.pollConnected E.logged fin done b).1.forget, (c.pollConnected E.logged fin done b).2) := by
  obtain ⟨⟨conn0, log⟩, time, traffic, cc, sc, phase⟩ := c
  unfold ProxyClient.pollConnected
  rw [logged_process_eq]
  dsimp only [ProxyClient.forget]
  cases E.process conn0 with
  | none => rfl
  | some conn =>
    dsimp only [Option.map]
    cases sc with
    | true =>
      simp only [↓reduceIte]
      have hl : E.logged.masterSecret (conn, log) = E.masterSecret conn := rfl
      rw [hl]
      by_cases hm : E.masterSecret conn = []
      · simp only [hm, ↓reduceIte]
      · simp only [hm, ↓reduceIte]
        cases time with
        | none => rfl
        | some time =>
          exact forget_pollFinalizing fin done _ time traffic
            { conn := (conn, log), time := some time, traffic := {}, clientClosed := cc, serverClosed := true, phase := phase }
    | false =>
      simp only [Bool.false_eq_true, ↓reduceIte]
      by_cases hc : (cc && !b) = true
      · simp only [hc, ↓reduceIte]
        rw [logged_process_eq]
        have he : (E.logged.closeNotify (conn, log)).1 = E.closeNotify conn := rfl
        rw [he]
        cases E.process (E.closeNotify conn) <;> rfl
      · simp only [hc, Bool.false_eq_true, ↓reduceIte]

theorem forget_pollHandshaking (E : Engine σ) (fin : Bytes → Nat → TlsBytes → Bool) (done : Option Bool) (now : Nat)
    (c : ProxyClient (σ × List SendCall)) :
    c.forget.pollHandshaking E fin done now =
      ((c.pollHandshaking E.logged fin done now).1.forget, (c.pollHandshaking E.logged fin done now).2) := by
  unfold ProxyClient.pollHandshaking
  rw [logged_process_eq]
  show (match E.process c.conn.1 with | none => _ | some conn => _ : ProxyClient σ × ClientPoll) = _
  cases E.process c.conn.1 with
  | none => rfl
  | some conn =>
    dsimp only [Option.map]
    show (if E.isHandshaking conn then _ else _ : ProxyClient σ × ClientPoll) =
      ((if E.isHandshaking conn then _ else _ : ProxyClient (σ × List SendCall) × ClientPoll).1.forget,
       (if E.isHandshaking conn then _ else _ : ProxyClient (σ × List SendCall) × ClientPoll).2)
    split
    · rfl
    · exact forget_pollConnected E fin done false { c with conn := (conn, c.conn.2), time := some now, phase := .connected false }

theorem forget_poll (E : Engine σ) (fin : Bytes → Nat → TlsBytes → Bool) (done : Option Bool) (now : Nat)
    (c : ProxyClient (σ × List SendCall)) :
    c.forget.poll E fin done now = ((c.poll E.logged fin done now).1.forget, (c.poll E.logged fin done now).2) := by
  unfold ProxyClient.poll
  show (match c.phase with | .init => _ | .handshaking => _ | .connected sent => _ | .finalizing ms time traffic => _ | .error => _ : ProxyClient σ × ClientPoll) = _
  cases c.phase with
  | init => exact forget_pollHandshaking E fin done now { c with phase := .handshaking }
  | handshaking => exact forget_pollHandshaking E fin done now c
  | connected sent => exact forget_pollConnected E fin done sent c
  | finalizing ms time t => exact forget_pollFinalizing fin done ms time t c
  | error => rfl

theorem forget_pollClient (E : Engine σ) (fin : Bytes → Nat → TlsBytes → Bool) (e : Ready) (d : ProxyDriver (σ × List SendCall)) :
    (d.pollClient E.logged fin e).forget = d.forget.pollClient E fin e := by
  unfold ProxyDriver.pollClient
  show _ = if d.output.isSome then _ else (match d.client.forget.poll E fin e.done e.now with
    | (c, .err) => _ | (c, .ready ms time traffic) => _ | (c, .pending) => _)
  rw [forget_poll]
  split
  · rfl
  · rcases d.client.poll E.logged fin e.done e.now with ⟨c, r⟩
    cases r <;> rfl

/-- **C141** A prover whose connection keeps the list does the same as one whose connection does not. -/
theorem C141_logged (E : Engine σ) (fin : Bytes → Nat → TlsBytes → Bool) (conn : σ) (acts : List ProxyAct) :
    (ProxyDriver.run E.logged fin (conn, []) acts).forget = ProxyDriver.run E fin conn acts := by
  have hstep : ∀ (d : ProxyDriver (σ × List SendCall)) a, (ProxyDriver.step E.logged fin d a).forget = ProxyDriver.step E fin d.forget a := by
    intro d a
    unfold ProxyDriver.step
    cases a with
    | poll e =>
      dsimp only
      unfold ProxyDriver.poll
      rw [forget_andThen (forget_close e), forget_andThen (forget_giveApp E e), forget_andThen (forget_giveSocket e),
        forget_andThen (forget_giveServer E e), forget_andThen (forget_pollClient E fin e), forget_andThen (forget_takeServer E e),
        forget_andThen (forget_takeSocket e), forget_andThen (forget_takeApp E e)]
    | appWrite b =>
      dsimp only
      show _ = if d.appClosed then _ else _
      split <;> rfl
    | appClose => rfl
    | appRead n => rfl
  unfold ProxyDriver.run
  have h0 : ({ client := { conn := (conn, []) } } : ProxyDriver (σ × List SendCall)).forget = { client := { conn } } := rfl
  rw [← h0]
  generalize ({ client := { conn := (conn, []) } } : ProxyDriver (σ × List SendCall)) = d0
  induction acts generalizing d0 with
  | nil => rfl
  | cons a as ih => rw [List.foldl_cons, List.foldl_cons, ih, hstep]

/-! ## The alert is sent -/

theorem logged_process {E : Engine σ} {c c' : σ × List SendCall} (h : E.logged.process c = some c') : c'.2 = c.2 := by
  have h : (E.process c.1).map (fun r => (r, c.2)) = some c' := h
  cases hp : E.process c.1 with
  | none => rw [hp] at h; cases h
  | some r => rw [hp] at h; cases h; rfl

theorem flag_pollFinalizing (fin : Bytes → Nat → TlsBytes → Bool) (done : Option Bool) (ms : Bytes) (time : Nat) (t : TlsBytes)
    (c : ProxyClient (σ × List SendCall)) (b : Bool) : (c.pollFinalizing fin done ms time t).1.phase ≠ .connected b := by
  unfold ProxyClient.pollFinalizing
  repeat' split
  all_goals exact fun h => (nomatch h)

theorem flag_pollConnected (E : Engine σ) (fin : Bytes → Nat → TlsBytes → Bool) (done : Option Bool) (b : Bool)
    (c : ProxyClient (σ × List SendCall)) (h : (c.pollConnected E.logged fin done b).1.phase = .connected true) :
    b = true ∧ (c.pollConnected E.logged fin done b).1.conn.2 = c.conn.2 ∨
      SendCall.closeNotify ∈ (c.pollConnected E.logged fin done b).1.conn.2 := by
  revert h
  unfold ProxyClient.pollConnected
  cases hp : E.logged.process c.conn with
  | none => exact fun h => (nomatch h)
  | some conn =>
    dsimp only
    split
    · split
      · exact fun h => (nomatch h)
      · split
        · exact fun h => (nomatch h)
        · exact fun h => absurd h (flag_pollFinalizing fin done _ _ _ _ true)
    · split
      · cases hq : E.logged.process (E.logged.closeNotify conn) with
        | none => exact fun h => (nomatch h)
        | some conn2 =>
          intro _
          refine Or.inr ?_
          show SendCall.closeNotify ∈ conn2.2
          rw [logged_process hq]
          exact List.mem_append_right _ List.mem_cons_self
      · intro h
        injection h with h
        exact Or.inl ⟨h, logged_process hp⟩

theorem flag_poll (E : Engine σ) (fin : Bytes → Nat → TlsBytes → Bool) (done : Option Bool) (now : Nat)
    (c : ProxyClient (σ × List SendCall)) (hc : c.phase = .connected true → SendCall.closeNotify ∈ c.conn.2)
    (h : (c.poll E.logged fin done now).1.phase = .connected true) :
    SendCall.closeNotify ∈ (c.poll E.logged fin done now).1.conn.2 := by
  have hs : ∀ c : ProxyClient (σ × List SendCall), (c.pollHandshaking E.logged fin done now).1.phase = .connected true →
      SendCall.closeNotify ∈ (c.pollHandshaking E.logged fin done now).1.conn.2 := by
    intro c
    unfold ProxyClient.pollHandshaking
    split
    · exact fun h => (nomatch h)
    · split
      · exact fun h => (nomatch h)
      · intro h
        rcases flag_pollConnected E fin done false _ h with ⟨h, -⟩ | h
        · cases h
        · exact h
  revert h
  unfold ProxyClient.poll
  split
  · exact hs _
  · exact hs _
  · rename_i sent hp
    intro h
    rcases flag_pollConnected E fin done sent _ h with ⟨h1, h2⟩ | h
    · rw [h2]; exact hc (by rw [hp, h1])
    · exact h
  · exact fun h => absurd h (flag_pollFinalizing fin done _ _ _ _ true)
  · rename_i hp
    intro h
    have h : c.phase = .connected true := h
    rw [hp] at h; cases h

/-- What else is invariant: the client knows what the prover knows, and whether it has asked for the alert. -/
structure FlagInv (d : ProxyDriver (σ × List SendCall)) : Prop where
  knows : d.clientClosed = true → d.client.clientClosed = true
  flag : d.client.phase = .connected true → SendCall.closeNotify ∈ d.client.conn.2

theorem FlagInv.keep {d d' : ProxyDriver (σ × List SendCall)} (h : FlagInv d) (h1 : d'.client.clientClosed = d.client.clientClosed)
    (h2 : d'.clientClosed = d.clientClosed) (h5 : ∃ l, d'.client.conn.2 = d.client.conn.2 ++ l)
    (h6 : d'.client.phase = d.client.phase) : FlagInv d' := by
  obtain ⟨a, b⟩ := h
  obtain ⟨l, h5⟩ := h5
  refine ⟨?_, ?_⟩
  · rw [h1, h2]; exact a
  · rw [h5, h6]; exact fun h => List.mem_append_left _ (b h)

theorem FlagInv.same {d d' : ProxyDriver (σ × List SendCall)} (h : FlagInv d) (h1 : d'.client.clientClosed = d.client.clientClosed)
    (h2 : d'.clientClosed = d.clientClosed) (h5 : d'.client.conn.2 = d.client.conn.2)
    (h6 : d'.client.phase = d.client.phase) : FlagInv d' :=
  h.keep h1 h2 ⟨[], by rw [h5, List.append_nil]⟩ h6

/-- What a step of a poll keeps. -/
structure Later (d d' : ProxyDriver (σ × List SendCall)) : Prop where
  server : d.serverClosed = true → d'.serverClosed = true
  failed : d.status = .failed → d'.status = .failed
  calls : ∃ l, d'.client.conn.2 = d.client.conn.2 ++ l

theorem Later.refl (d : ProxyDriver (σ × List SendCall)) : Later d d := ⟨id, id, [], by rw [List.append_nil]⟩

theorem Later.trans {a b c : ProxyDriver (σ × List SendCall)} (h : Later a b) (h' : Later b c) : Later a c := by
  obtain ⟨a1, a2, l, a3⟩ := h
  obtain ⟨b1, b2, l', b3⟩ := h'
  exact ⟨b1 ∘ a1, b2 ∘ a2, l ++ l', by rw [b3, a3, List.append_assoc]⟩

theorem Later.andThen {a d : ProxyDriver (σ × List SendCall)} (h : Later a d)
    {f : ProxyDriver (σ × List SendCall) → ProxyDriver (σ × List SendCall)} (hf : d.status = .running → Later d (f d)) :
    Later a (d.andThen f) := by
  unfold ProxyDriver.andThen
  split
  · exact h.trans (hf ‹_›)
  · exact h

/-- A step that leaves the calls alone. -/
theorem Later.of {d d' : ProxyDriver (σ × List SendCall)} (hr : d.status = .running)
    (h1 : d.serverClosed = true → d'.serverClosed = true) (h2 : d'.client.conn.2 = d.client.conn.2) : Later d d' :=
  ⟨h1, (fun h => absurd (hr.symm.trans h) (by decide)), [], by rw [h2, List.append_nil]⟩

theorem flag_takeApp {E : Engine σ} (e : Ready) (d : ProxyDriver (σ × List SendCall)) (hr : d.status = .running) (h : FlagInv d) :
    FlagInv (d.takeApp E.logged e) ∧ Later d (d.takeApp E.logged e) := by
  unfold ProxyDriver.takeApp
  split
  · split
    · unfold ProxyClient.write
      rw [logged_write]
      cases E.write d.client.conn.1 (d.appIn.take (e.appGet + 1)) with
      | none => exact ⟨h.same rfl rfl rfl rfl, Later.of hr id rfl⟩
      | some r => exact ⟨h.keep rfl rfl ⟨_, rfl⟩ rfl, id, (fun h => absurd (hr.symm.trans h) (by decide)), _, rfl⟩
    · exact ⟨h, Later.refl d⟩
  · split
    · exact ⟨⟨fun _ => rfl, h.flag⟩, Later.of hr id rfl⟩
    · exact ⟨h, Later.refl d⟩

theorem flag_takeSocket (e : Ready) (d : ProxyDriver (σ × List SendCall)) (hr : d.status = .running) (h : FlagInv d) :
    FlagInv (d.takeSocket e) ∧ Later d (d.takeSocket e) := by
  unfold ProxyDriver.takeSocket
  split
  · exact ⟨h, Later.refl d⟩
  · exact ⟨h.same rfl rfl rfl rfl, Later.of hr (fun _ => rfl) rfl⟩
  · split
    · exact ⟨h, Later.refl d⟩
    · exact ⟨h.same rfl rfl rfl rfl, Later.of hr id rfl⟩
  · exact ⟨h.same rfl rfl rfl rfl, Later.of hr id rfl⟩

theorem flag_takeServer {E : Engine σ} (e : Ready) (d : ProxyDriver (σ × List SendCall)) (hr : d.status = .running) (h : FlagInv d) :
    FlagInv (d.takeServer E.logged e) ∧ Later d (d.takeServer E.logged e) := by
  unfold ProxyDriver.takeServer
  split
  · split
    · unfold ProxyClient.readTls
      rw [logged_readTls]
      cases E.readTls d.client.conn.1 (d.fromServer.take (e.serverGet + 1)) <;>
        exact ⟨h.same rfl rfl rfl rfl, Later.of hr id rfl⟩
    · exact ⟨h, Later.refl d⟩
  · split <;> exact ⟨h.same rfl rfl rfl rfl, Later.of hr id rfl⟩

theorem flag_pollClient {E : Engine σ} {fin : Bytes → Nat → TlsBytes → Bool} (e : Ready) (d : ProxyDriver (σ × List SendCall))
    (hr : d.status = .running) (h : FlagInv d) :
    FlagInv (d.pollClient E.logged fin e) ∧ Later d (d.pollClient E.logged fin e) := by
  unfold ProxyDriver.pollClient
  split
  · exact ⟨h, Later.refl d⟩
  · have hs := alert_poll E fin e.done e.now d.client
    have hf := flag_poll E fin e.done e.now d.client h.flag
    revert hs hf
    rcases d.client.poll E.logged fin e.done e.now with ⟨c, r⟩
    intro hs hf
    have hl : ∃ l, c.conn.2 = d.client.conn.2 ++ l := by
      rcases hs.2 with ⟨a, -⟩ | ⟨a, -⟩
      · exact ⟨[], by rw [List.append_nil]; exact a⟩
      · exact ⟨_, a⟩
    have hk : d.clientClosed = true → c.clientClosed = true := fun hc => hs.1.trans (h.knows hc)
    cases r <;> exact ⟨⟨hk, hf⟩, id, (fun h => absurd (hr.symm.trans h) (by decide)), hl⟩

theorem flag_giveServer {E : Engine σ} (e : Ready) (d : ProxyDriver (σ × List SendCall)) (hr : d.status = .running) (h : FlagInv d) :
    FlagInv (d.giveServer E.logged e) ∧ Later d (d.giveServer E.logged e) := by
  unfold ProxyDriver.giveServer ProxyClient.writeTls
  rw [logged_writeTls]
  cases E.writeTls d.client.conn.1 e.room <;> exact ⟨h.same rfl rfl rfl rfl, Later.of hr id rfl⟩

theorem flag_giveSocket (e : Ready) (d : ProxyDriver (σ × List SendCall)) (hr : d.status = .running) (h : FlagInv d) :
    FlagInv (d.giveSocket e) ∧ Later d (d.giveSocket e) := by
  unfold ProxyDriver.giveSocket
  split <;> exact ⟨h.same rfl rfl rfl rfl, Later.of hr id rfl⟩

theorem flag_giveApp {E : Engine σ} (e : Ready) (d : ProxyDriver (σ × List SendCall)) (hr : d.status = .running) (h : FlagInv d) :
    FlagInv (d.giveApp E.logged e) ∧ Later d (d.giveApp E.logged e) := by
  unfold ProxyDriver.giveApp
  split
  · rename_i room _
    split
    · unfold ProxyClient.read
      rw [logged_read]
      cases E.read d.client.conn.1 room <;> exact ⟨h.same rfl rfl rfl rfl, Later.of hr id rfl⟩
    · exact ⟨h, Later.refl d⟩
  · exact ⟨h.same rfl rfl rfl rfl, Later.of hr id rfl⟩
  · exact ⟨h, Later.refl d⟩

theorem flag_close (e : Ready) (d : ProxyDriver (σ × List SendCall)) (hr : d.status = .running) (h : FlagInv d) :
    FlagInv (d.close e) ∧ Later d (d.close e) := by
  unfold ProxyDriver.close
  repeat' split
  all_goals exact ⟨h.same rfl rfl rfl rfl, Later.of hr id rfl⟩

theorem FlagInv.andThen {d : ProxyDriver (σ × List SendCall)} (h : FlagInv d)
    {f : ProxyDriver (σ × List SendCall) → ProxyDriver (σ × List SendCall)}
    (hf : ∀ d, d.status = .running → FlagInv d → FlagInv (f d) ∧ Later d (f d)) :
    FlagInv (d.andThen f) ∧ Later d (d.andThen f) := by
  unfold ProxyDriver.andThen
  split
  · exact hf d ‹_› h
  · exact ⟨h, Later.refl d⟩

theorem flag_step {E : Engine σ} (fin : Bytes → Nat → TlsBytes → Bool) (d : ProxyDriver (σ × List SendCall))
    (a : ProxyAct) (h : FlagInv d) : FlagInv (ProxyDriver.step E.logged fin d a) := by
  unfold ProxyDriver.step
  cases a with
  | poll e =>
    dsimp only
    unfold ProxyDriver.poll
    exact ((((((((h.andThen (flag_takeApp e)).1.andThen (flag_takeSocket e)).1.andThen (flag_takeServer e)).1.andThen
      (flag_pollClient e)).1.andThen (flag_giveServer e)).1.andThen (flag_giveSocket e)).1.andThen (flag_giveApp e)).1.andThen
      (flag_close e)).1
  | appWrite b =>
    dsimp only
    split
    · exact h
    · exact h.same rfl rfl rfl rfl
  | appClose => exact h.same rfl rfl rfl rfl
  | appRead n => exact h.same rfl rfl rfl rfl

theorem flag_run (E : Engine σ) (fin : Bytes → Nat → TlsBytes → Bool) (conn : σ) (acts : List ProxyAct) :
    FlagInv (ProxyDriver.run E.logged fin (conn, []) acts) := by
  unfold ProxyDriver.run
  have h0 : FlagInv ({ client := { conn := (conn, []) } } : ProxyDriver (σ × List SendCall)) :=
    ⟨fun h => (nomatch h), fun h => (nomatch h)⟩
  generalize ({ client := { conn := (conn, []) } } : ProxyDriver (σ × List SendCall)) = d0 at h0
  induction acts generalizing d0 with
  | nil => exact h0
  | cons a as ih => exact ih _ (flag_step fin d0 a h0)

theorem Engine.Lawful.logged {E : Engine σ} (hE : E.Lawful) : E.logged.Lawful := by
  refine ⟨fun c b n c' h => ?_, fun c b n c' h => ?_⟩
  · rw [logged_readTls] at h
    cases hr : E.readTls c.1 b with
    | none => rw [hr] at h; cases h
    | some r => rw [hr] at h; cases h; exact hE.readTls _ _ _ _ hr
  · rw [logged_write] at h
    cases hr : E.write c.1 b with
    | none => rw [hr] at h; cases h
    | some r => rw [hr] at h; cases h; exact hE.write _ _ _ _ hr

/-- A poll of the client which asks for the alert. -/
theorem asks_poll (E : Engine σ) (fin : Bytes → Nat → TlsBytes → Bool) (done : Option Bool) (now : Nat)
    (c : ProxyClient (σ × List SendCall)) (b : Bool) (hp : c.phase = .connected b) (hs : c.serverClosed = false)
    (hc : c.clientClosed = true) (hb : b = true → SendCall.closeNotify ∈ c.conn.2) :
    (c.poll E.logged fin done now).2 = .err ∨ SendCall.closeNotify ∈ (c.poll E.logged fin done now).1.conn.2 := by
  unfold ProxyClient.poll
  rw [hp]
  dsimp only
  unfold ProxyClient.pollConnected
  cases hq : E.logged.process c.conn with
  | none => exact Or.inl rfl
  | some conn =>
    dsimp only
    rw [hs, hc]
    cases b with
    | true =>
      right
      show SendCall.closeNotify ∈ conn.2
      rw [logged_process hq]
      exact hb rfl
    | false =>
      rw [if_neg Bool.false_ne_true, if_pos (show (true && !false) = true from rfl)]
      cases hq : E.logged.process (E.logged.closeNotify conn) with
      | none => exact Or.inl rfl
      | some conn2 =>
        right
        show SendCall.closeNotify ∈ conn2.2
        rw [logged_process hq]
        exact List.mem_append_right _ List.mem_cons_self

/-- **C141** When the application has closed its side and all its data was taken, the next poll of a prover that is connected, to
a server that has not closed, asks for the closing alert, unless it fails. -/
theorem C141_sent (E : Engine σ) (hE : E.Lawful) (fin : Bytes → Nat → TlsBytes → Bool) (conn : σ) (acts : List ProxyAct) (e : Ready)
    (hp : ∃ b, (ProxyDriver.run E.logged fin (conn, []) acts).client.phase = .connected b)
    (hr : (ProxyDriver.run E.logged fin (conn, []) acts).status = .running)
    (hc : (ProxyDriver.run E.logged fin (conn, []) acts).appClosed = true)
    (hi : (ProxyDriver.run E.logged fin (conn, []) acts).appIn = [])
    (hs : (ProxyDriver.run E.logged fin (conn, []) (acts ++ [.poll e])).serverClosed = false)
    (hf : (ProxyDriver.run E.logged fin (conn, []) (acts ++ [.poll e])).status ≠ .failed) :
    SendCall.closeNotify ∈ (ProxyDriver.run E.logged fin (conn, []) (acts ++ [.poll e])).client.conn.2 := by
  rw [run_poll] at hs hf ⊢
  have hI := sound_run hE.logged fin (conn, []) acts (by rw [hr]; decide)
  have hF := flag_run E fin conn acts
  generalize ProxyDriver.run E.logged fin (conn, []) acts = d at *
  obtain ⟨b, hp⟩ := hp
  have ho : d.output = none := (hI.before (hI.not_final (Or.inr ⟨b, hp⟩))).1
  unfold ProxyDriver.poll at hs hf ⊢
  -- the four steps up to the poll of the client
  obtain ⟨f1, l1⟩ := hF.andThen (flag_takeApp (E := E) e)
  obtain ⟨f2, l2⟩ := f1.andThen (flag_takeSocket e)
  obtain ⟨f3, l3⟩ := f2.andThen (flag_takeServer (E := E) e)
  obtain ⟨f4, l4⟩ := f3.andThen (flag_pollClient (E := E) (fin := fin) e)
  obtain ⟨f5, l5⟩ := f4.andThen (flag_giveServer (E := E) e)
  obtain ⟨f6, l6⟩ := f5.andThen (flag_giveSocket e)
  obtain ⟨f7, l7⟩ := f6.andThen (flag_giveApp (E := E) e)
  obtain ⟨f8, l8⟩ := f7.andThen (flag_close e)
  have l58 := ((l5.trans l6).trans l7).trans l8
  have l48 := l4.trans l58
  have l38 := l3.trans l48
  have l28 := l2.trans l38
  have l18 := l1.trans l28
  have no : ∀ {x y : ProxyDriver (σ × List SendCall)}, Later x y → y.serverClosed = false → x.serverClosed = false := by
    intro x y h hy
    cases hx : x.serverClosed with
    | false => rfl
    | true => rw [h.server hx] at hy; cases hy
  have run : ∀ {x y : ProxyDriver (σ × List SendCall)}, Later x y → y.status ≠ .failed → x.status ≠ .failed :=
    fun h hy hx => hy (h.failed hx)
  suffices hg : SendCall.closeNotify ∈ ((((d.andThen (·.takeApp E.logged e)).andThen (·.takeSocket e)).andThen
      (·.takeServer E.logged e)).andThen (·.pollClient E.logged fin e)).client.conn.2 by
    obtain ⟨l, hl⟩ := l58.calls
    rw [hl]; exact List.mem_append_left _ hg
  have s0 := no l18 hs
  have s1 := no l28 hs
  have s2 := no l38 hs
  have s3 := no l48 hs
  have r1 := run l28 hf
  have r2 := run l38 hf
  have r3 := run l48 hf
  have r4 := run l58 hf
  clear l18 l28 l38 l48 l58 l1 l2 l3 l4 l5 l6 l7 l8 f1 f2 f4 f5 f6 f7 f8 hs hf
  -- what the first steps leave
  have c0 : d.client.serverClosed = false := by
    cases hx : d.client.serverClosed with
    | false => rfl
    | true => rw [(hI.closed hx).1] at s0; cases s0
  have g1 : (d.andThen (·.takeApp E.logged e)).client.clientClosed = true ∧
      (d.andThen (·.takeApp E.logged e)).client.phase = .connected b ∧
      (d.andThen (·.takeApp E.logged e)).client.serverClosed = false ∧ (d.andThen (·.takeApp E.logged e)).output = none ∧
      (d.andThen (·.takeApp E.logged e)).status = .running := by
    unfold ProxyDriver.andThen
    rw [if_pos hr]
    dsimp only
    unfold ProxyDriver.takeApp
    rw [if_neg (fun h => h hi), hc, s0]
    cases hk : d.clientClosed with
    | true => exact ⟨hF.knows hk, hp, c0, ho, hr⟩
    | false => exact ⟨rfl, hp, c0, ho, hr⟩
  clear hI hF hi hc c0 hp ho hr
  generalize d.andThen (·.takeApp E.logged e) = d1 at *
  have g2 : (d1.andThen (·.takeSocket e)).client = d1.client ∧ (d1.andThen (·.takeSocket e)).output = none ∧
      (d1.andThen (·.takeSocket e)).status = .running := by
    unfold ProxyDriver.andThen at r2 ⊢
    rw [if_pos g1.2.2.2.2] at r2 ⊢
    dsimp only at r2 ⊢
    revert r2
    unfold ProxyDriver.takeSocket
    split
    · exact fun _ => ⟨rfl, g1.2.2.2⟩
    · exact fun _ => ⟨rfl, g1.2.2.2⟩
    · split <;> exact fun _ => ⟨rfl, g1.2.2.2⟩
    · exact fun h => absurd rfl h
  generalize d1.andThen (·.takeSocket e) = d2 at *
  have g3 : (d2.andThen (·.takeServer E.logged e)).client.clientClosed = true ∧
      (d2.andThen (·.takeServer E.logged e)).client.phase = .connected b ∧
      (d2.andThen (·.takeServer E.logged e)).client.serverClosed = false ∧
      (d2.andThen (·.takeServer E.logged e)).output = none ∧ (d2.andThen (·.takeServer E.logged e)).status = .running := by
    obtain ⟨a1, a2, a3, -, -⟩ := g1
    rw [← g2.1] at a1 a2 a3
    unfold ProxyDriver.andThen at r3 ⊢
    rw [if_pos g2.2.2] at r3 ⊢
    dsimp only at r3 ⊢
    revert r3
    unfold ProxyDriver.takeServer
    rw [s2]
    split
    · split
      · unfold ProxyClient.readTls
        rw [logged_readTls]
        cases E.readTls d2.client.conn.1 (d2.fromServer.take (e.serverGet + 1)) with
        | none => exact fun h => absurd rfl h
        | some r => exact fun _ => ⟨a1, a2, a3, g2.2⟩
      · exact fun _ => ⟨a1, a2, a3, g2.2⟩
    · exact fun _ => ⟨a1, a2, a3, g2.2⟩
  generalize d2.andThen (·.takeServer E.logged e) = d3 at *
  obtain ⟨a1, a2, a3, a4, a5⟩ := g3
  unfold ProxyDriver.andThen at r4 ⊢
  rw [if_pos a5] at r4 ⊢
  dsimp only at r4 ⊢
  revert r4
  unfold ProxyDriver.pollClient
  rw [a4]
  have ha := asks_poll E fin e.done e.now d3.client b a2 a3 a1 (fun hb => f3.flag (by rw [a2, hb]))
  revert ha
  dsimp only [Option.isSome]
  rcases d3.client.poll E.logged fin e.done e.now with ⟨c, r⟩
  intro ha
  cases r with
  | err => exact fun h => absurd rfl h
  | ready => intro _; rcases ha with ha | ha; cases ha; exact ha
  | pending => intro _; rcases ha with ha | ha; cases ha; exact ha

/-- A session in which the application writes, closes, and the alert follows; both theorems apply. -/
example :
    let acts := [ProxyAct.appWrite [7, 8], .poll (allReady (.data [5, 6])), .poll (allReady .pending), .appClose]
    let d := ProxyDriver.run toyEngine.logged (fun _ _ _ => true) ({}, []) acts
    let d' := ProxyDriver.run toyEngine.logged (fun _ _ _ => true) ({}, []) (acts ++ [.poll (allReady .pending)])
    d.client.phase = .connected false ∧ d.status = .running ∧ d.appClosed = true ∧ d.appIn = [] ∧ d'.serverClosed = false ∧
      d'.status = .running ∧ d'.client.conn.2 = [.data [7, 8], .closeNotify] ∧ d'.appWrote = [7, 8] := by decide

end Tlsn.Proxy
