import Verif.Proxy.Client
import Verif.Proxy.Props

/-! # What the prover of the proxy mode records (C93, C94) -/

namespace Tlsn.Proxy

open Tlsn.Drive (SockRead Sink)

variable {σ : Type}

/-- The connection takes no more bytes than it is given. -/
structure Engine.Lawful (E : Engine σ) : Prop where
  readTls : ∀ c b n c', E.readTls c b = some (n, c') → n ≤ b.length
  write : ∀ c b n c', E.write c b = some (n, c') → n ≤ b.length

/-- What was handed to `finalize`, nothing before. -/
def ProxyDriver.handed (d : ProxyDriver σ) : TlsBytes :=
  match d.final with
  | none => {}
  | some (_, _, t) => t

/-- The invariant. -/
structure DriverInv (d : ProxyDriver σ) : Prop where
  sent : d.handed.tlsSent ++ d.client.traffic.tlsSent = d.socketOut ++ d.toServer
  recv : d.handed.tlsRecv ++ (d.client.traffic.tlsRecv ++ d.fromServer) = d.socketIn
  appSent : d.handed.appSent ++ (d.client.traffic.appSent ++ d.appIn) = d.appWrote
  appRecv : d.handed.appRecv ++ d.client.traffic.appRecv = d.appRead ++ d.appOut
  closed : d.client.serverClosed = true → d.serverClosed = true ∧ d.fromServer = []
  before : d.final = none → d.output = none ∧ d.client.phase ≠ .error ∧ ∀ ms time t, d.client.phase ≠ .finalizing ms time t
  after : ∀ ms time t, d.final = some (ms, time, t) → d.client.serverClosed = true ∧
    (d.client.phase = .finalizing ms time t ∧ d.output = none ∨ d.client.phase = .error ∧ d.output = some (ms, time, t)) ∧
    d.client.traffic.tlsRecv = [] ∧ d.client.traffic.appSent = [] ∧ d.client.traffic.appRecv = []

/-- The invariant, as long as there was no error. -/
def Sound (d : ProxyDriver σ) : Prop := d.status ≠ .failed → DriverInv d

theorem Sound.andThen {d : ProxyDriver σ} (h : Sound d) {f : ProxyDriver σ → ProxyDriver σ}
    (hf : ∀ d, DriverInv d → Sound (f d)) : Sound (d.andThen f) := by
  unfold ProxyDriver.andThen
  split
  · rename_i hr
    exact hf d (h (by rw [hr]; decide))
  · exact h

theorem sound_fail (d : ProxyDriver σ) : Sound d.fail := fun h => absurd rfl h

theorem handed_none {d : ProxyDriver σ} (h : d.final = none) : d.handed = {} := by unfold ProxyDriver.handed; rw [h]

theorem handed_some {d : ProxyDriver σ} {ms : Bytes} {time : Nat} {t : TlsBytes} (h : d.final = some (ms, time, t)) :
    d.handed = t := by unfold ProxyDriver.handed; rw [h]

/-- The client takes data while it has not handed over its traffic. -/
theorem DriverInv.not_final {d : ProxyDriver σ} (h : DriverInv d)
    (hp : d.client.phase = .handshaking ∨ ∃ b, d.client.phase = .connected b) : d.final = none := by
  cases hf : d.final with
  | none => rfl
  | some x =>
    obtain ⟨ms, time, t⟩ := x
    obtain ⟨-, ha, -⟩ := h.after ms time t hf
    rcases ha with ⟨ha, -⟩ | ⟨ha, -⟩ <;> rw [ha] at hp <;> rcases hp with hp | ⟨b, hp⟩ <;> cases hp

theorem wantsWrite_phase {c : ProxyClient σ} (h : c.wantsWrite = true) :
    c.phase = .handshaking ∨ ∃ b, c.phase = .connected b := by
  unfold ProxyClient.wantsWrite at h
  split at h
  · exact .inl (by assumption)
  · exact .inr ⟨_, by assumption⟩
  · cases h

theorem wantsRead_phase {c : ProxyClient σ} (h : c.wantsRead = true) : ∃ b, c.phase = .connected b := by
  unfold ProxyClient.wantsRead at h
  split at h
  · exact ⟨_, by assumption⟩
  · cases h

theorem sound_takeApp {E : Engine σ} (hE : E.Lawful) (e : Ready) (d : ProxyDriver σ) (h : DriverInv d) : Sound (d.takeApp E e) := by
  unfold ProxyDriver.takeApp
  by_cases h1 : d.appIn ≠ []
  · rw [if_pos h1]
    by_cases h2 : d.client.wantsWrite = true
    · rw [if_pos h2]
      cases hw : d.client.write E (d.appIn.take (e.appGet + 1)) with
      | none => exact sound_fail d
      | some x =>
        obtain ⟨n, c⟩ := x
        intro _
        have hfin := h.not_final (wantsWrite_phase h2)
        unfold ProxyClient.write at hw
        split at hw
        · cases hw
        · rename_i n' conn hc
          have hn := hE.write _ _ _ _ hc
          cases hw
          have hn1 : n ≤ e.appGet + 1 := by simp only [List.length_take] at hn; omega
          have heq : (d.appIn.take (e.appGet + 1)).take n ++ d.appIn.drop n = d.appIn := by
            rw [List.take_take, Nat.min_eq_left hn1, List.take_append_drop]
          obtain ⟨a1, a2, a3, a4, a5, a6, a7⟩ := h
          refine ⟨a1, a2, ?_, a4, a5, a6, fun ms time t hf => ?_⟩
          · have : d.handed.appSent ++ (d.client.traffic.appSent ++ d.appIn) = d.appWrote := a3
            rw [← this]
            show d.handed.appSent ++ ((d.client.traffic.appSent ++ (d.appIn.take (e.appGet + 1)).take n) ++ d.appIn.drop n) = _
            rw [List.append_assoc, heq]
          · rw [hfin] at hf; cases hf
    · rw [if_neg h2]; exact fun _ => h
  · rw [if_neg h1]
    split
    · intro _
      obtain ⟨a1, a2, a3, a4, a5, a6, a7⟩ := h
      exact ⟨a1, a2, a3, a4, a5, a6, a7⟩
    · exact fun _ => h

theorem sound_takeSocket (e : Ready) (d : ProxyDriver σ) (h : DriverInv d) : Sound (d.takeSocket e) := by
  unfold ProxyDriver.takeSocket
  obtain ⟨a1, a2, a3, a4, a5, a6, a7⟩ := h
  cases e.socketRead with
  | pending => exact fun _ => ⟨a1, a2, a3, a4, a5, a6, a7⟩
  | eof => exact fun _ => ⟨a1, a2, a3, a4, fun hc => ⟨rfl, (a5 hc).2⟩, a6, a7⟩
  | failed => exact sound_fail d
  | data b =>
    simp only
    by_cases hs : d.serverClosed = true
    · rw [if_pos hs]; exact fun _ => ⟨a1, a2, a3, a4, a5, a6, a7⟩
    · rw [if_neg hs]
      refine fun _ => ⟨a1, ?_, a3, a4, fun hc => absurd (a5 hc).1 hs, a6, a7⟩
      show d.handed.tlsRecv ++ (d.client.traffic.tlsRecv ++ (d.fromServer ++ b)) = d.socketIn ++ b
      rw [← a2]
      simp only [List.append_assoc]

theorem sound_takeServer {E : Engine σ} (hE : E.Lawful) (e : Ready) (d : ProxyDriver σ) (h : DriverInv d) :
    Sound (d.takeServer E e) := by
  unfold ProxyDriver.takeServer
  by_cases h1 : d.fromServer ≠ []
  · rw [if_pos h1]
    by_cases h2 : E.wantsRead d.client.conn = true
    · rw [if_pos h2]
      cases hw : d.client.readTls E (d.fromServer.take (e.serverGet + 1)) with
      | none => exact sound_fail d
      | some x =>
        obtain ⟨n, c⟩ := x
        intro _
        unfold ProxyClient.readTls at hw
        split at hw
        · cases hw
        · rename_i n' conn hc
          have hn := hE.readTls _ _ _ _ hc
          cases hw
          have hn1 : n ≤ e.serverGet + 1 := by simp only [List.length_take] at hn; omega
          have heq : (d.fromServer.take (e.serverGet + 1)).take n ++ d.fromServer.drop n = d.fromServer := by
            rw [List.take_take, Nat.min_eq_left hn1, List.take_append_drop]
          obtain ⟨a1, a2, a3, a4, a5, a6, a7⟩ := h
          refine ⟨a1, ?_, a3, a4, fun hcl => absurd (a5 hcl).2 h1, a6, fun ms time t hf => absurd (a5 (a7 ms time t hf).1).2 h1⟩
          show d.handed.tlsRecv ++ ((d.client.traffic.tlsRecv ++ (d.fromServer.take (e.serverGet + 1)).take n) ++
            d.fromServer.drop n) = d.socketIn
          rw [List.append_assoc, heq, a2]
    · rw [if_neg h2]; exact fun _ => h
  · rw [if_neg h1]
    by_cases hs : d.serverClosed = true
    · rw [if_pos hs]
      obtain ⟨a1, a2, a3, a4, a5, a6, a7⟩ := h
      exact fun _ => ⟨a1, a2, a3, a4, fun _ => ⟨hs, Classical.byContradiction h1⟩, a6, fun ms time t hf => ⟨rfl, (a7 ms time t hf).2⟩⟩
    · rw [if_neg hs]; exact fun _ => h

theorem sound_giveServer {E : Engine σ} (e : Ready) (d : ProxyDriver σ) (h : DriverInv d) : Sound (d.giveServer E e) := by
  unfold ProxyDriver.giveServer
  cases hw : d.client.writeTls E e.room with
  | none => exact sound_fail d
  | some x =>
    obtain ⟨b, c⟩ := x
    unfold ProxyClient.writeTls at hw
    split at hw
    · cases hw
    · cases hw
      obtain ⟨a1, a2, a3, a4, a5, a6, a7⟩ := h
      refine fun _ => ⟨?_, a2, a3, a4, a5, a6, a7⟩
      show d.handed.tlsSent ++ (d.client.traffic.tlsSent ++ b) = d.socketOut ++ (d.toServer ++ b)
      rw [← List.append_assoc, a1, List.append_assoc]

theorem sound_giveSocket (e : Ready) (d : ProxyDriver σ) (h : DriverInv d) : Sound (d.giveSocket e) := by
  unfold ProxyDriver.giveSocket
  obtain ⟨a1, a2, a3, a4, a5, a6, a7⟩ := h
  cases e.socketWrite with
  | takes n =>
    refine fun _ => ⟨?_, a2, a3, a4, a5, a6, a7⟩
    show d.handed.tlsSent ++ d.client.traffic.tlsSent = (d.socketOut ++ d.toServer.take n) ++ d.toServer.drop n
    rw [a1, List.append_assoc, List.take_append_drop]
  | failed => exact sound_fail d
  | pending => exact fun _ => ⟨a1, a2, a3, a4, a5, a6, a7⟩
  | broken => exact fun _ => ⟨a1, a2, a3, a4, a5, a6, a7⟩

theorem sound_giveApp {E : Engine σ} (e : Ready) (d : ProxyDriver σ) (h : DriverInv d) : Sound (d.giveApp E e) := by
  unfold ProxyDriver.giveApp
  cases e.appSink with
  | takes room =>
    simp only
    by_cases h2 : d.client.wantsRead = true
    · rw [if_pos h2]
      cases hw : d.client.read E room with
      | none => exact sound_fail d
      | some x =>
        obtain ⟨b, c⟩ := x
        have hfin := h.not_final (.inr (wantsRead_phase h2))
        unfold ProxyClient.read at hw
        split at hw
        · cases hw
        · cases hw
          obtain ⟨a1, a2, a3, a4, a5, a6, a7⟩ := h
          refine fun _ => ⟨a1, a2, a3, ?_, a5, a6, fun ms time t hf => ?_⟩
          · show d.handed.appRecv ++ (d.client.traffic.appRecv ++ b) = d.appRead ++ (d.appOut ++ b)
            rw [← List.append_assoc, a4, List.append_assoc]
          · rw [hfin] at hf; cases hf
    · rw [if_neg h2]; exact fun _ => h
  | failed => exact sound_fail d
  | pending => exact fun _ => h
  | broken => exact fun _ => h

theorem sound_close (e : Ready) (d : ProxyDriver σ) (h : DriverInv d) : Sound (d.close e) := by
  have h' := h
  obtain ⟨a1, a2, a3, a4, a5, a6, a7⟩ := h
  unfold ProxyDriver.close
  split
  · split
    · exact fun _ => h'
    · exact sound_fail d
    · split
      · exact fun _ => h'
      · exact sound_fail d
      · exact fun _ => ⟨a1, a2, a3, a4, a5, a6, a7⟩
  · exact fun _ => h'

/-- How a poll of the client ends without an error, before the traffic is handed over. -/
inductive PollCase (E : Engine σ) (now : Nat) (c c' : ProxyClient σ) (r : ClientPoll) : Prop where
  | stays (h1 : r = .pending) (h2 : c'.traffic = c.traffic) (h3 : c'.serverClosed = c.serverClosed)
      (h4 : c'.phase = .handshaking ∨ ∃ b, c'.phase = .connected b)
  | hands (ms : Bytes) (time : Nat) (h1 : c.serverClosed = true) (h2 : c'.serverClosed = true) (h3 : c'.traffic = {})
      (h4 : r = .pending ∧ c'.phase = .finalizing ms time c.traffic ∨ r = .ready ms time c.traffic ∧ c'.phase = .error)
      (h5 : ms ≠ []) (h6 : c.time = some time ∨ time = now)
  | fails (h : r = .err)

theorem pollFinalizing_case (fin : Bytes → Nat → TlsBytes → Bool) (done : Option Bool) (ms : Bytes) (time : Nat) (t : TlsBytes)
    (c : ProxyClient σ) {c' : ProxyClient σ} {r : ClientPoll} (h : c.pollFinalizing fin done ms time t = (c', r)) :
    r = .err ∨ c'.traffic = c.traffic ∧ c'.serverClosed = c.serverClosed ∧
      (r = .pending ∧ c'.phase = .finalizing ms time t ∨ r = .ready ms time t ∧ c'.phase = .error ∧ fin ms time t = true) := by
  unfold ProxyClient.pollFinalizing at h
  split at h
  · cases h; exact .inr ⟨rfl, rfl, .inl ⟨rfl, rfl⟩⟩
  · split at h
    · cases h; exact .inr ⟨rfl, rfl, .inr ⟨rfl, rfl, by assumption⟩⟩
    · cases h; exact .inl rfl
  · cases h; exact .inl rfl

theorem pollConnected_case (E : Engine σ) (fin : Bytes → Nat → TlsBytes → Bool) (done : Option Bool) (b : Bool) (now : Nat)
    (c : ProxyClient σ) {c' : ProxyClient σ} {r : ClientPoll} (h : c.pollConnected E fin done b = (c', r)) :
    PollCase E now c c' r := by
  unfold ProxyClient.pollConnected at h
  split at h
  · cases h; exact .fails rfl
  · rename_i conn hc
    by_cases hs : c.serverClosed = true
    · rw [if_pos hs] at h
      by_cases hm : E.masterSecret conn = []
      · rw [if_pos hm] at h
        cases h; exact .fails rfl
      · rw [if_neg hm] at h
        split at h
        · cases h; exact .fails rfl
        · rename_i time ht
          rcases pollFinalizing_case fin done _ time c.traffic _ h with rfl | ⟨p1, p2, p3⟩
          · exact .fails rfl
          · refine .hands (E.masterSecret conn) time hs (p2.trans hs) p1 ?_ hm (.inl ht)
            rcases p3 with ⟨p3, p4⟩ | ⟨p3, p4, -⟩
            · exact .inl ⟨p3, p4⟩
            · exact .inr ⟨p3, p4⟩
    · rw [if_neg hs] at h
      split at h
      · split at h
        · cases h; exact .fails rfl
        · cases h; exact .stays rfl rfl rfl (.inr ⟨_, rfl⟩)
      · cases h; exact .stays rfl rfl rfl (.inr ⟨_, rfl⟩)

theorem pollHandshaking_case (E : Engine σ) (fin : Bytes → Nat → TlsBytes → Bool) (done : Option Bool) (now : Nat)
    (c : ProxyClient σ) {c' : ProxyClient σ} {r : ClientPoll} (h : c.pollHandshaking E fin done now = (c', r)) :
    PollCase E now c c' r := by
  unfold ProxyClient.pollHandshaking at h
  split at h
  · cases h; exact .fails rfl
  · split at h
    · cases h; exact .stays rfl rfl rfl (.inl rfl)
    · cases pollConnected_case E fin done false now _ h with
      | stays h1 h2 h3 h4 => exact .stays h1 h2 h3 h4
      | hands ms time h1 h2 h3 h4 h5 h6 =>
        refine .hands ms time h1 h2 h3 h4 h5 (.inr ?_)
        rcases h6 with h6 | h6
        · exact (Option.some.inj h6).symm
        · exact h6
      | fails h => exact .fails h

theorem poll_case (E : Engine σ) (fin : Bytes → Nat → TlsBytes → Bool) (done : Option Bool) (now : Nat)
    (c : ProxyClient σ) {c' : ProxyClient σ} {r : ClientPoll} (h : c.poll E fin done now = (c', r))
    (hp : c.phase ≠ .error ∧ ∀ ms time t, c.phase ≠ .finalizing ms time t) : PollCase E now c c' r := by
  unfold ProxyClient.poll at h
  split at h
  · cases pollHandshaking_case E fin done now _ h with
    | stays h1 h2 h3 h4 => exact .stays h1 h2 h3 h4
    | hands ms time h1 h2 h3 h4 h5 h6 => exact .hands ms time h1 h2 h3 h4 h5 h6
    | fails h => exact .fails h
  · exact pollHandshaking_case E fin done now c h
  · exact pollConnected_case E fin done _ now c h
  · rename_i hph; exact absurd hph (hp.2 _ _ _)
  · rename_i hph; exact absurd hph hp.1

theorem sound_pollClient {E : Engine σ} {fin : Bytes → Nat → TlsBytes → Bool} (e : Ready) (d : ProxyDriver σ) (h : DriverInv d) :
    Sound (d.pollClient E fin e) := by
  unfold ProxyDriver.pollClient
  by_cases ho : d.output.isSome = true
  · rw [if_pos ho]; exact fun _ => h
  · rw [if_neg ho]
    have ho' : d.output = none := by
      cases hh : d.output with
      | none => rfl
      | some x => rw [hh] at ho; exact absurd rfl ho
    obtain ⟨a1, a2, a3, a4, a5, a6, a7⟩ := h
    cases hf : d.final with
    | none =>
      obtain ⟨-, b2, b3⟩ := a6 hf
      have hh := handed_none hf
      rw [hh] at a1 a2 a3 a4
      cases hp : d.client.poll E fin e.done e.now with
      | mk c r =>
      cases poll_case E fin e.done e.now d.client hp ⟨b2, b3⟩ with
      | fails hr => subst hr; exact fun hne => absurd rfl hne
      | stays h1 h2 h3 h4 =>
        subst h1
        have hne : ∀ ms time t, c.phase ≠ .finalizing ms time t := by
          intro ms time t hc
          rcases h4 with h4 | ⟨b, h4⟩ <;> rw [h4] at hc <;> cases hc
        have hfin : (match c.phase with | .finalizing ms time t => some (ms, time, t) | _ => none) =
            (none : Option (Bytes × Nat × TlsBytes)) := by
          rcases h4 with h4 | ⟨b, h4⟩ <;> rw [h4]
        simp only
        refine fun _ => ⟨?_, ?_, ?_, ?_, ?_, ?_, fun ms time t hx => by cases hx⟩
        · show [] ++ c.traffic.tlsSent = _
          rw [h2]; exact a1
        · show [] ++ (c.traffic.tlsRecv ++ _) = _
          rw [h2]; exact a2
        · show [] ++ (c.traffic.appSent ++ _) = _
          rw [h2]; exact a3
        · show [] ++ c.traffic.appRecv = _
          rw [h2]; exact a4
        · intro hc
          exact a5 (h3.symm.trans hc)
        · refine fun _ => ⟨ho', fun hc => ?_, hne⟩
          have hc : c.phase = .error := hc
          rcases h4 with h4 | ⟨b, h4⟩ <;> rw [h4] at hc <;> cases hc
      | hands ms time h1 h2 h3 h4 h5 h6 =>
        have key : ∀ d' : ProxyDriver σ, d'.client = c → d'.final = some (ms, time, d.client.traffic) →
            d'.socketOut = d.socketOut → d'.toServer = d.toServer → d'.fromServer = d.fromServer → d'.socketIn = d.socketIn →
            d'.appIn = d.appIn → d'.appWrote = d.appWrote → d'.appRead = d.appRead → d'.appOut = d.appOut →
            d'.serverClosed = d.serverClosed →
            (c.phase = .finalizing ms time d.client.traffic ∧ d'.output = none ∨
              c.phase = .error ∧ d'.output = some (ms, time, d.client.traffic)) → DriverInv d' := by
          intro d' e1 e2 e3 e4 e5 e6 e7 e8 e9 e10 e11 e12
          have hh' := handed_some e2
          refine ⟨?_, ?_, ?_, ?_, ?_, ?_, ?_⟩
          · rw [hh', e1, h3, e3, e4, ← a1]; simp
          · rw [hh', e1, h3, e5, e6, ← a2]; simp
          · rw [hh', e1, h3, e7, e8, ← a3]; simp
          · rw [hh', e1, h3, e9, e10, ← a4]; simp
          · rw [e11, e5]; exact fun _ => a5 h1
          · intro hx; rw [e2] at hx; cases hx
          · intro ms' time' t' hx
            rw [e2] at hx
            cases hx
            rw [e1]
            exact ⟨h2, e12, by rw [h3], by rw [h3], by rw [h3]⟩
        rcases h4 with ⟨rfl, h4⟩ | ⟨rfl, h4⟩
        · exact fun _ => key _ rfl (by simp only [h4]) rfl rfl rfl rfl rfl rfl rfl rfl rfl (.inl ⟨h4, ho'⟩)
        · exact fun _ => key _ rfl rfl rfl rfl rfl rfl rfl rfl rfl rfl rfl (.inr ⟨h4, rfl⟩)
    | some x =>
      obtain ⟨ms, time, t⟩ := x
      obtain ⟨b1, b2, b3, b4, b5⟩ := a7 ms time t hf
      have hph : d.client.phase = .finalizing ms time t := by
        rcases b2 with ⟨b2, -⟩ | ⟨-, b2⟩
        · exact b2
        · rw [ho'] at b2; cases b2
      have hpoll : d.client.poll E fin e.done e.now = d.client.pollFinalizing fin e.done ms time t := by
        unfold ProxyClient.poll; rw [hph]
      have hh := handed_some hf
      rw [hh] at a1 a2 a3 a4
      rw [hpoll]
      cases hp : d.client.pollFinalizing fin e.done ms time t with
      | mk c r =>
      rcases pollFinalizing_case fin e.done ms time t d.client hp with rfl | ⟨p1, p2, p3⟩
      · exact fun hne => absurd rfl hne
      · have key : ∀ d' : ProxyDriver σ, d'.client = c → d'.final = some (ms, time, t) →
            d'.socketOut = d.socketOut → d'.toServer = d.toServer → d'.fromServer = d.fromServer → d'.socketIn = d.socketIn →
            d'.appIn = d.appIn → d'.appWrote = d.appWrote → d'.appRead = d.appRead → d'.appOut = d.appOut →
            d'.serverClosed = d.serverClosed →
            (c.phase = .finalizing ms time t ∧ d'.output = none ∨ c.phase = .error ∧ d'.output = some (ms, time, t)) →
            DriverInv d' := by
          intro d' e1 e2 e3 e4 e5 e6 e7 e8 e9 e10 e11 e12
          have hh' := handed_some e2
          refine ⟨?_, ?_, ?_, ?_, ?_, ?_, ?_⟩
          · rw [hh', e1, p1, e3, e4, ← a1]
          · rw [hh', e1, p1, e5, e6, ← a2]
          · rw [hh', e1, p1, e7, e8, ← a3]
          · rw [hh', e1, p1, e9, e10, ← a4]
          · rw [e11, e5]; exact fun _ => a5 b1
          · intro hx; rw [e2] at hx; cases hx
          · intro ms' time' t' hx
            rw [e2] at hx
            cases hx
            rw [e1]
            exact ⟨p2.trans b1, e12, by rw [p1]; exact b3, by rw [p1]; exact b4, by rw [p1]; exact b5⟩
        rcases p3 with ⟨rfl, h4⟩ | ⟨rfl, h4, -⟩
        · exact fun _ => key _ rfl (by simp only [h4]) rfl rfl rfl rfl rfl rfl rfl rfl rfl (.inl ⟨h4, ho'⟩)
        · exact fun _ => key _ rfl rfl rfl rfl rfl rfl rfl rfl rfl rfl rfl (.inr ⟨h4, rfl⟩)

theorem sound_poll {E : Engine σ} (hE : E.Lawful) (fin : Bytes → Nat → TlsBytes → Bool) (e : Ready) (d : ProxyDriver σ)
    (h : Sound d) : Sound (d.poll E fin e) :=
  (((((((h.andThen (sound_takeApp hE e)).andThen (sound_takeSocket e)).andThen (sound_takeServer hE e)).andThen
    (sound_pollClient e)).andThen (sound_giveServer e)).andThen (sound_giveSocket e)).andThen (sound_giveApp e)).andThen
    (sound_close e)

theorem sound_appWrite (d : ProxyDriver σ) (b : Bytes) (h : Sound d) :
    Sound { d with appIn := d.appIn ++ b, appWrote := d.appWrote ++ b } := by
  intro hs
  have hs : d.status ≠ .failed := hs
  obtain ⟨a1, a2, a3, a4, a5, a6, a7⟩ := h hs
  refine ⟨a1, a2, ?_, a4, a5, a6, a7⟩
  show d.handed.appSent ++ (d.client.traffic.appSent ++ (d.appIn ++ b)) = d.appWrote ++ b
  rw [← a3]
  simp only [List.append_assoc]

theorem sound_appClose (d : ProxyDriver σ) (h : Sound d) : Sound { d with appClosed := true } := by
  intro hs
  have hs : d.status ≠ .failed := hs
  obtain ⟨a1, a2, a3, a4, a5, a6, a7⟩ := h hs
  exact ⟨a1, a2, a3, a4, a5, a6, a7⟩

theorem sound_appRead (d : ProxyDriver σ) (n : Nat) (h : Sound d) :
    Sound { d with appOut := d.appOut.drop n, appRead := d.appRead ++ d.appOut.take n } := by
  intro hs
  have hs : d.status ≠ .failed := hs
  obtain ⟨a1, a2, a3, a4, a5, a6, a7⟩ := h hs
  refine ⟨a1, a2, a3, ?_, a5, a6, a7⟩
  show d.handed.appRecv ++ d.client.traffic.appRecv = (d.appRead ++ d.appOut.take n) ++ d.appOut.drop n
  rw [a4, List.append_assoc, List.take_append_drop]

theorem sound_step {E : Engine σ} (hE : E.Lawful) (fin : Bytes → Nat → TlsBytes → Bool) (d : ProxyDriver σ) (a : ProxyAct)
    (h : Sound d) : Sound (d.step E fin a) := by
  cases a with
  | poll e => exact sound_poll hE fin e d h
  | appWrite b =>
    have hstep : d.step E fin (.appWrite b) =
        if d.appClosed then d else { d with appIn := d.appIn ++ b, appWrote := d.appWrote ++ b } := rfl
    rw [hstep]
    by_cases hc : d.appClosed = true
    · rw [if_pos hc]; exact h
    · rw [if_neg hc]
      exact sound_appWrite d b h
  | appClose => exact sound_appClose d h
  | appRead n => exact sound_appRead d n h

theorem sound_run {E : Engine σ} (hE : E.Lawful) (fin : Bytes → Nat → TlsBytes → Bool) (conn : σ) (acts : List ProxyAct) :
    Sound (ProxyDriver.run E fin conn acts) := by
  unfold ProxyDriver.run
  have h0 : Sound ({ client := { conn } } : ProxyDriver σ) := fun _ =>
    ⟨rfl, rfl, rfl, rfl, fun h => (by cases h), fun _ => ⟨rfl, by simp, by simp⟩, fun ms time t h => by cases h⟩
  generalize ({ client := { conn } } : ProxyDriver σ) = d at h0
  induction acts generalizing d with
  | nil => exact h0
  | cons a acts ih => exact ih _ (sound_step hE fin d a h0)

/-! ## The properties -/

/-- **C93** While the prover of the proxy mode is connected, its record of the traffic is complete: what came from the socket is
recorded or still waits in the pipe, what was recorded as sent went to the socket or waits in the pipe; the application data that
was recorded is what the application has written and what it was given. -/
theorem C93_recorded (E : Engine σ) (hE : E.Lawful) (fin : Bytes → Nat → TlsBytes → Bool) (conn : σ) (acts : List ProxyAct) :
    let d := ProxyDriver.run E fin conn acts
    d.status ≠ .failed → d.final = none →
      d.client.traffic.tlsRecv ++ d.fromServer = d.socketIn ∧ d.client.traffic.tlsSent = d.socketOut ++ d.toServer ∧
      d.client.traffic.appSent ++ d.appIn = d.appWrote ∧ d.client.traffic.appRecv = d.appRead ++ d.appOut := by
  intro d hs hf
  obtain ⟨a1, a2, a3, a4, -, -, -⟩ := sound_run hE fin conn acts hs
  rw [handed_none hf] at a1 a2 a3 a4
  exact ⟨a2, a1, a3, a4⟩

/-- **C93** The traffic from which the prover makes its transcript: the server had ended; all that came from the socket is in it;
the data for the application is what the application gets, now and later; the data from the application is a front of what the
application wrote; the bytes that are recorded as sent are a front of those that go to the socket. -/
theorem C93_final_partial (E : Engine σ) (hE : E.Lawful) (fin : Bytes → Nat → TlsBytes → Bool) (conn : σ) (acts : List ProxyAct)
    (ms : Bytes) (time : Nat) (t : TlsBytes) :
    let d := ProxyDriver.run E fin conn acts
    d.status ≠ .failed → d.final = some (ms, time, t) →
      d.serverClosed = true ∧ t.tlsRecv = d.socketIn ∧ t.appRecv = d.appRead ++ d.appOut ∧
      t.appSent ++ d.appIn = d.appWrote ∧ ∃ late, t.tlsSent ++ late = d.socketOut ++ d.toServer := by
  intro d hs hf
  obtain ⟨a1, a2, a3, a4, a5, -, a7⟩ := sound_run hE fin conn acts hs
  obtain ⟨b1, -, b2, b3, b4⟩ := a7 ms time t hf
  obtain ⟨c1, c2⟩ := a5 b1
  rw [handed_some hf] at a1 a2 a3 a4
  rw [b2, c2, List.append_nil, List.append_nil] at a2
  rw [b3, List.nil_append] at a3
  rw [b4, List.append_nil] at a4
  exact ⟨c1, a2, a4, a3, _, a1⟩

/-- The result of the prover is made from this traffic. -/
theorem C93_output (E : Engine σ) (hE : E.Lawful) (fin : Bytes → Nat → TlsBytes → Bool) (conn : σ) (acts : List ProxyAct)
    (out : Bytes × Nat × TlsBytes) :
    let d := ProxyDriver.run E fin conn acts
    d.status ≠ .failed → d.output = some out → d.final = some out := by
  intro d hs ho
  obtain ⟨-, -, -, -, -, a6, a7⟩ := sound_run hE fin conn acts hs
  cases hf : d.final with
  | none => rw [(a6 hf).1] at ho; cases ho
  | some x =>
    obtain ⟨ms, time, t⟩ := x
    obtain ⟨-, b, -⟩ := a7 ms time t hf
    rcases b with ⟨-, b⟩ | ⟨-, b⟩
    · have b : d.output = none := b
      rw [b] at ho; cases ho
    · have b : d.output = some (ms, time, t) := b
      rw [b] at ho; exact ho

theorem appLength_of_wire {w : List OpaqueMessage} {app : Option Bytes} {rs : List Record} (h : RecordsOfWire w app rs) :
    appLength rs = ((w.filter (·.typ = .applicationData)).map (·.payload.length - 24)).sum := by
  have key : ∀ (w : List OpaqueMessage) (rs : List Record), rs.length = w.length →
      (∀ (i : Nat) (m : OpaqueMessage) (r : Record), w[i]? = some m → rs[i]? = some r →
        r.typ = m.typ ∧ r.ciphertext.length = m.payload.length - 24) →
      appLength rs = ((w.filter (·.typ = .applicationData)).map (·.payload.length - 24)).sum := by
    intro w
    induction w with
    | nil => intro rs hl _; cases rs with
      | nil => rfl
      | cons r rs => cases hl
    | cons m w ih =>
      intro rs hl he
      cases rs with
      | nil => cases hl
      | cons r rs =>
        obtain ⟨h1, h2⟩ := he 0 m r rfl rfl
        rw [appLength_cons, ih rs (by simpa using hl) (fun i m r hm hr => he (i + 1) m r hm hr), h1, h2]
        by_cases hm : m.typ = .applicationData <;> simp [hm]
  refine key w rs h.len fun i m r hm hr => ?_
  obtain ⟨-, e2, e3, tag, -, e4, e5⟩ := h.enc i m r hm hr
  exact ⟨e2, by rw [e5]; simp [e3, e4]; omega⟩

/-- **C93** If the application data that the client recorded as received is shorter than what the received records hold, for
example because the application had not read everything when the server closed, then the prover fails. -/
theorem C93_unread_fails (S : Hmac.Sha) (env : TtEnv) (p : Party) (ms : Bytes) (time : Nat) (traffic : TlsBytes) (recv : List OpaqueMessage)
    (h1 : RecordStream traffic.tlsRecv recv)
    (h2 : traffic.appRecv.length < (((protectedRecords recv).filter (·.typ = .applicationData)).map (·.payload.length - 24)).sum) :
    ∃ e, proverFinalize S env p ms time traffic = .err e := by
  unfold proverFinalize
  cases hb : (proverBuilder time traffic).build env with
  | err e => exact ⟨_, rfl⟩
  | panic => rcases C42_build_panics_only_on_empty env _ hb with h | h <;> cases h
  | ok t =>
    obtain ⟨sent', recv', f, v, d, -, b2, -, -, -, -, -, -, -, -, -, b12, -⟩ :=
      (build_raw_iff env (proverBuilder time traffic) _ _ rfl rfl t).1 hb
    obtain rfl := recordStream_unique h1 b2
    obtain ⟨_, hw, b12⟩ := b12
    cases hw
    have := (b12.known _ rfl).1
    rw [appLength_of_wire b12] at this
    omega

/-- The session of `Example` holds three bytes for the application: the prover's transcript is made from all of them, not from
two. -/
example :
    let traffic : TlsBytes := { tlsSent := Example.sent.flatMap frameBytes, tlsRecv := Example.recv.flatMap frameBytes,
                                appSent := [71, 69, 84], appRecv := [50, 48, 48] }
    let made : TlsBytes → Bool := fun t =>
      match (proverBuilder 1700000000 t).build Example.env with
      | .ok _ => true
      | _ => false
    made traffic = true ∧ made { traffic with appRecv := [50, 48] } = false ∧
      (((protectedRecords Example.recv).filter (·.typ = .applicationData)).map (·.payload.length - 24)).sum = 3 := by
  decide +kernel

/-! ## The end -/

/-- Steps that keep what was handed over. -/
theorem final_kept {d : ProxyDriver σ} (E : Engine σ) (e : Ready) (h : d.status = .failed ∨ d.final.isSome = true) :
    let d' := (((d.andThen (·.giveServer E e)).andThen (·.giveSocket e)).andThen (·.giveApp E e)).andThen (·.close e)
    d'.status = .failed ∨ d'.final.isSome = true := by
  have step : ∀ (f : ProxyDriver σ → ProxyDriver σ), (∀ d, d.final.isSome = true → (f d).final.isSome = true) →
      ∀ d : ProxyDriver σ, d.status = .failed ∨ d.final.isSome = true →
        (d.andThen f).status = .failed ∨ (d.andThen f).final.isSome = true := by
    intro f hf d hd
    unfold ProxyDriver.andThen
    split
    · rename_i hr
      rcases hd with hd | hd
      · rw [hr] at hd; cases hd
      · exact .inr (hf d hd)
    · exact hd
  refine step _ (fun d hd => ?_) _ (step _ (fun d hd => ?_) _ (step _ (fun d hd => ?_) _ (step _ (fun d hd => ?_) _ h)))
  · unfold ProxyDriver.close
    split
    · split
      · exact hd
      · exact hd
      · split <;> exact hd
    · exact hd
  · unfold ProxyDriver.giveApp
    split
    · split
      · split <;> exact hd
      · exact hd
    · exact hd
    · exact hd
  · unfold ProxyDriver.giveSocket
    split <;> exact hd
  · unfold ProxyDriver.giveServer
    split <;> exact hd

/-- One poll after the end of the server. -/
theorem closed_poll {E : Engine σ} {fin : Bytes → Nat → TlsBytes → Bool} {d : ProxyDriver σ} (e : Ready) (hinv : DriverInv d)
    (hr : d.status = .running) (hp : ∃ b, d.client.phase = .connected b) (hs : d.serverClosed = true) (hn : d.fromServer = []) :
    (d.poll E fin e).status = .failed ∨ (d.poll E fin e).final.isSome = true := by
  unfold ProxyDriver.poll
  apply final_kept
  -- the application
  have h1 : d.andThen (·.takeApp E e) = d.takeApp E e := by unfold ProxyDriver.andThen; rw [if_pos hr]
  rw [h1]
  have g1 : (d.takeApp E e).status = .failed ∨ (d.takeApp E e).status = .running ∧
      (∃ b, (d.takeApp E e).client.phase = .connected b) ∧ (d.takeApp E e).serverClosed = true ∧ (d.takeApp E e).fromServer = [] ∧
      (d.takeApp E e).output = none := by
    have ho : d.output = none := by
      have := hinv.not_final (.inr hp)
      exact (hinv.before this).1
    unfold ProxyDriver.takeApp
    split
    · split
      · cases hw : d.client.write E (d.appIn.take (e.appGet + 1)) with
        | none => exact .inl rfl
        | some x =>
          obtain ⟨n, c⟩ := x
          unfold ProxyClient.write at hw
          split at hw
          · cases hw
          · cases hw; exact .inr ⟨hr, hp, hs, hn, ho⟩
      · exact .inr ⟨hr, hp, hs, hn, ho⟩
    · split
      · exact .inr ⟨hr, hp, hs, hn, ho⟩
      · exact .inr ⟨hr, hp, hs, hn, ho⟩
  generalize d.takeApp E e = d1 at g1
  have stop : ∀ (x : ProxyDriver σ) (f : ProxyDriver σ → ProxyDriver σ), x.status = .failed → x.andThen f = x := by
    intro x f hx
    unfold ProxyDriver.andThen
    rw [if_neg (by rw [hx]; decide)]
  rcases g1 with g1 | ⟨r1, ⟨b, p1⟩, s1, n1, o1⟩
  · rw [stop d1 _ g1, stop d1 _ g1, stop d1 _ g1]; exact .inl g1
  -- the socket
  have h2 : d1.andThen (·.takeSocket e) = d1.takeSocket e := by unfold ProxyDriver.andThen; rw [if_pos r1]
  rw [h2]
  have g2 : (d1.takeSocket e).status = .failed ∨ (d1.takeSocket e).status = .running ∧
      (d1.takeSocket e).client.phase = .connected b ∧ (d1.takeSocket e).serverClosed = true ∧ (d1.takeSocket e).fromServer = [] ∧
      (d1.takeSocket e).output = none := by
    unfold ProxyDriver.takeSocket
    split
    · exact .inr ⟨r1, p1, s1, n1, o1⟩
    · exact .inr ⟨r1, p1, rfl, n1, o1⟩
    · rw [if_pos s1]; exact .inr ⟨r1, p1, s1, n1, o1⟩
    · exact .inl rfl
  generalize d1.takeSocket e = d2 at g2
  rcases g2 with g2 | ⟨r2, p2, s2, n2, o2⟩
  · rw [stop d2 _ g2, stop d2 _ g2]; exact .inl g2
  have h3 : d2.andThen (·.takeServer E e) = { d2 with client := { d2.client with serverClosed := true } } := by
    unfold ProxyDriver.andThen
    rw [if_pos r2]
    show d2.takeServer E e = _
    unfold ProxyDriver.takeServer
    rw [if_neg (by simp [n2]), if_pos s2]
  rw [h3]
  -- the client
  have h4 : ∀ d3 : ProxyDriver σ, d3.status = .running → d3.client.phase = .connected b → d3.client.serverClosed = true →
      d3.output = none → (d3.andThen (·.pollClient E fin e)).status = .failed ∨
        (d3.andThen (·.pollClient E fin e)).final.isSome = true := by
    intro d3 r3 p3 s3 o3
    have : d3.andThen (·.pollClient E fin e) = d3.pollClient E fin e := by unfold ProxyDriver.andThen; rw [if_pos r3]
    rw [this]
    unfold ProxyDriver.pollClient
    rw [if_neg (by rw [o3]; decide)]
    cases hp : d3.client.poll E fin e.done e.now with
    | mk c r =>
    cases poll_case E fin e.done e.now d3.client hp (by rw [p3]; exact ⟨fun hx => (by cases hx), fun _ _ _ hx => by cases hx⟩) with
    | fails hr => subst hr; exact .inl rfl
    | hands ms time a1 a2 a3 a4 a5 a6 =>
      rcases a4 with ⟨rfl, a4⟩ | ⟨rfl, a4⟩
      · simp only [a4]; exact .inr rfl
      · exact .inr rfl
    | stays a1 a2 a3 a4 =>
      exfalso
      unfold ProxyClient.poll at hp
      rw [p3] at hp
      simp only at hp
      unfold ProxyClient.pollConnected at hp
      split at hp
      · cases hp; cases a1
      · rw [if_pos s3] at hp
        split at hp
        · cases hp; cases a1
        · split at hp
          · cases hp; cases a1
          · subst a1
            rcases pollFinalizing_case fin e.done _ _ _ _ hp with hx | ⟨-, -, hx | hx⟩
            · cases hx
            · rcases a4 with a4 | ⟨b', a4⟩ <;> rw [hx.2] at a4 <;> cases a4
            · cases hx.1
  exact h4 _ r2 p2 rfl o2

theorem step_poll (E : Engine σ) (fin : Bytes → Nat → TlsBytes → Bool) (d : ProxyDriver σ) (e : Ready) :
    ProxyDriver.step E fin d (.poll e) = d.poll E fin e := by unfold ProxyDriver.step; rfl

theorem run_poll (E : Engine σ) (fin : Bytes → Nat → TlsBytes → Bool) (conn : σ) (acts : List ProxyAct) (e : Ready) :
    ProxyDriver.run E fin conn (acts ++ [.poll e]) = (ProxyDriver.run E fin conn acts).poll E fin e := by
  unfold ProxyDriver.run
  rw [List.foldl_append, List.foldl_cons, List.foldl_nil, step_poll]

/-- **C94** Once the server has closed and everything it sent has been taken, the next poll of a prover that is connected fails or
begins to finalize; it does not wait for the application. -/
theorem C94_server_closed_partial (E : Engine σ) (hE : E.Lawful) (fin : Bytes → Nat → TlsBytes → Bool) (conn : σ)
    (acts : List ProxyAct) (e : Ready) (hr : (ProxyDriver.run E fin conn acts).status = .running)
    (hp : ∃ b, (ProxyDriver.run E fin conn acts).client.phase = .connected b)
    (hs : (ProxyDriver.run E fin conn acts).serverClosed = true) (hn : (ProxyDriver.run E fin conn acts).fromServer = []) :
    (ProxyDriver.run E fin conn (acts ++ [.poll e])).status = .failed ∨
      (ProxyDriver.run E fin conn (acts ++ [.poll e])).final.isSome = true := by
  rw [run_poll]
  have h := sound_run hE fin conn acts
  generalize ProxyDriver.run E fin conn acts = d at *
  exact closed_poll e (h (by rw [hr]; decide)) hr hp hs hn

/-! ## Where it goes wrong -/

/-- A connection without encryption, whose handshake ends with the first byte of the server. -/
structure Toy where
  started : Bool := false
  inQ : Bytes := []
  outQ : Bytes := []
  appQ : Bytes := []
  deriving DecidableEq, Repr

def toyEngine : Engine Toy where
  readTls c b := some (b.length, { c with inQ := c.inQ ++ b })
  writeTls c n := some (c.outQ.take n, { c with outQ := c.outQ.drop n })
  read c n := some (c.appQ.take n, { c with appQ := c.appQ.drop n })
  write c b := some (b.length, { c with outQ := c.outQ ++ b })
  process c := some { c with started := c.started || !c.inQ.isEmpty, appQ := c.appQ ++ c.inQ, inQ := [] }
  isHandshaking c := !c.started
  wantsRead _ := true
  closeNotify c := { c with outQ := c.outQ ++ [0] }
  masterSecret _ := [1]

theorem toyEngine_lawful : toyEngine.Lawful :=
  ⟨fun c b n c' h => by cases h; exact Nat.le_refl _, fun c b n c' h => by cases h; exact Nat.le_refl _⟩

/-- A poll in which everything is ready. -/
def allReady (read : SockRead) : Ready :=
  { appGet := 9, socketRead := read, serverGet := 9, now := 5, done := some true, room := 9, socketWrite := .takes 9,
    appSink := .takes 9, closeApp := some true, closeSocket := some true }

/-- **C93** The full statement is false: data that the application writes just before the server closes is sent to the server, and
so recorded by the verifier, but it is not in the traffic from which the prover makes its transcript. -/
theorem C93_late_data :
    let d := ProxyDriver.run toyEngine (fun _ _ _ => true) {} [.poll (allReady (.data [5, 6])), .appWrite [7], .poll (allReady .eof)]
    d.status = .closed ∧ d.output = some ([1], 5, { tlsSent := [], tlsRecv := [5, 6], appSent := [7], appRecv := [5, 6] }) ∧
      d.socketOut = [7] := by decide

/-- **C93** Data of the server that has not been handed to the application when the server closes never is, and the traffic does
not contain it; see `C93_unread_fails`. -/
theorem C93_unread_data :
    let d := ProxyDriver.run toyEngine (fun _ _ _ => true) {}
      [.poll { allReady (.data [5, 6]) with appSink := .pending }, .poll (allReady .eof), .poll (allReady .eof)]
    d.output = some ([1], 5, { tlsSent := [], tlsRecv := [5, 6], appSent := [], appRecv := [] }) ∧ d.appOut = [] ∧
      d.client.conn.appQ = [5, 6] := by decide

/-- An ordinary session: the server closes after it answered, and everything is handed over. -/
example :
    let d := ProxyDriver.run toyEngine (fun _ _ _ => true) {}
      [.appWrite [7], .poll (allReady (.data [5, 6])), .poll (allReady .pending), .appRead 2, .poll (allReady .eof)]
    d.status = .closed ∧ d.output = some ([1], 5, { tlsSent := [7], tlsRecv := [5, 6], appSent := [7], appRecv := [5, 6] }) ∧
      d.socketOut = [7] ∧ d.appRead = [5, 6] := by decide

/-- The hypotheses of `C94_server_closed_partial` in a session: the server closed while its data waited in the pipe. -/
example :
    let d := ProxyDriver.run toyEngine (fun _ _ _ => true) {} [.poll { allReady (.data [5, 6]) with serverGet := 0 },
      .poll { allReady .eof with serverGet := 0 }]
    d.status = .running ∧ d.client.phase = .connected false ∧ d.fromServer = [] ∧ d.serverClosed = true ∧ d.output = none := by decide

/-- Polls without errors. -/
def Ready.quiet (e : Ready) : Prop :=
  (e.socketRead = .pending ∨ e.socketRead = .eof) ∧ e.socketWrite ≠ .failed ∧ e.appSink ≠ .failed

/-- The state of a prover that waits for a handshake which will not go on. -/
structure Stalled (d : ProxyDriver Toy) : Prop where
  running : d.status = .running
  phase : d.client.phase = .init ∨ d.client.phase = .handshaking
  conn : d.client.conn.started = false ∧ d.client.conn.inQ = []
  pipe : d.fromServer = []
  final : d.final = none ∧ d.output = none

theorem stalled_poll (fin : Bytes → Nat → TlsBytes → Bool) {d : ProxyDriver Toy} (h : Stalled d) {e : Ready} (he : e.quiet) :
    Stalled (d.poll toyEngine fin e) := by
  have run : ∀ (d : ProxyDriver Toy) (f : ProxyDriver Toy → ProxyDriver Toy), Stalled d → Stalled (f d) → Stalled (d.andThen f) := by
    intro d f h hf
    unfold ProxyDriver.andThen
    rw [if_pos h.running]
    exact hf
  have s1 : ∀ d : ProxyDriver Toy, Stalled d → Stalled (d.takeApp toyEngine e) := by
    intro d h
    obtain ⟨a, b, c, p, q⟩ := h
    unfold ProxyDriver.takeApp
    split
    · split
      · exact ⟨a, b, c, p, q⟩
      · exact ⟨a, b, c, p, q⟩
    · split
      · exact ⟨a, b, c, p, q⟩
      · exact ⟨a, b, c, p, q⟩
  have s2 : ∀ d : ProxyDriver Toy, Stalled d → Stalled (d.takeSocket e) := by
    intro d h
    obtain ⟨a, b, c, p, q⟩ := h
    unfold ProxyDriver.takeSocket
    rcases he.1 with h | h <;> rw [h] <;> exact ⟨a, b, c, p, q⟩
  have s3 : ∀ d : ProxyDriver Toy, Stalled d → Stalled (d.takeServer toyEngine e) := by
    intro d h
    obtain ⟨a, b, c, p, q⟩ := h
    unfold ProxyDriver.takeServer
    rw [if_neg (by simp [p])]
    split <;> exact ⟨a, b, c, p, q⟩
  have s4 : ∀ d : ProxyDriver Toy, Stalled d → Stalled (d.pollClient toyEngine fin e) := by
    intro d h
    obtain ⟨a, b, ⟨c1, c2⟩, p, q1, q2⟩ := h
    have hp : d.client.poll toyEngine fin e.done e.now = ({ d.client with
        conn := { d.client.conn with appQ := d.client.conn.appQ ++ d.client.conn.inQ, inQ := [] }, phase := .handshaking },
        .pending) := by
      unfold ProxyClient.poll
      rcases b with b | b <;> rw [b] <;> simp [ProxyClient.pollHandshaking, toyEngine, c1, c2]
    unfold ProxyDriver.pollClient
    rw [if_neg (by rw [q2]; decide), hp]
    exact ⟨a, .inr rfl, ⟨c1, rfl⟩, p, q1, q2⟩
  have s5 : ∀ d : ProxyDriver Toy, Stalled d → Stalled (d.giveServer toyEngine e) := by
    intro d h
    obtain ⟨a, b, c, p, q⟩ := h
    exact ⟨a, b, c, p, q⟩
  have s6 : ∀ d : ProxyDriver Toy, Stalled d → Stalled (d.giveSocket e) := by
    intro d h
    obtain ⟨a, b, c, p, q⟩ := h
    unfold ProxyDriver.giveSocket
    cases hw : e.socketWrite with
    | failed => exact absurd hw he.2.1
    | takes n => exact ⟨a, b, c, p, q⟩
    | pending => exact ⟨a, b, c, p, q⟩
    | broken => exact ⟨a, b, c, p, q⟩
  have s7 : ∀ d : ProxyDriver Toy, Stalled d → Stalled (d.giveApp toyEngine e) := by
    intro d h
    have h' := h
    obtain ⟨a, b, c, p, q⟩ := h
    unfold ProxyDriver.giveApp
    have hw : d.client.wantsRead = false := by
      unfold ProxyClient.wantsRead
      rcases b with b | b <;> rw [b]
    cases hs : e.appSink with
    | failed => exact absurd hs he.2.2
    | takes n => simp only [hw, Bool.false_eq_true, if_false]; exact h'
    | pending => exact h'
    | broken => exact h'
  have s8 : ∀ d : ProxyDriver Toy, Stalled d → Stalled (d.close e) := by
    intro d h
    unfold ProxyDriver.close
    rw [h.final.2]
    simp only [Option.isSome_none, Bool.and_false, Bool.false_eq_true, if_false]
    exact h
  unfold ProxyDriver.poll
  have t1 := run _ _ h (s1 _ h)
  have t2 := run _ _ t1 (s2 _ t1)
  have t3 := run _ _ t2 (s3 _ t2)
  have t4 := run _ _ t3 (s4 _ t3)
  have t5 := run _ _ t4 (s5 _ t4)
  have t6 := run _ _ t5 (s6 _ t5)
  have t7 := run _ _ t6 (s7 _ t6)
  exact run _ _ t7 (s8 _ t7)

theorem serverClosed_poll {E : Engine σ} (fin : Bytes → Nat → TlsBytes → Bool) {d : ProxyDriver σ} (h : d.serverClosed = true)
    {e : Ready} : (d.poll E fin e).serverClosed = true := by
  have run : ∀ (d : ProxyDriver σ) (f : ProxyDriver σ → ProxyDriver σ), d.serverClosed = true →
      (f d).serverClosed = true → (d.andThen f).serverClosed = true := by
    intro d f h hf
    unfold ProxyDriver.andThen
    split
    · exact hf
    · exact h
  have s1 : ∀ d : ProxyDriver σ, d.serverClosed = true → (d.takeApp E e).serverClosed = true := by
    intro d h
    unfold ProxyDriver.takeApp
    split
    · split
      · split <;> exact h
      · exact h
    · split <;> exact h
  have s2 : ∀ d : ProxyDriver σ, d.serverClosed = true → (d.takeSocket e).serverClosed = true := by
    intro d h
    unfold ProxyDriver.takeSocket
    split
    · exact h
    · rfl
    · split <;> exact h
    · exact h
  have s3 : ∀ d : ProxyDriver σ, d.serverClosed = true → (d.takeServer E e).serverClosed = true := by
    intro d h
    unfold ProxyDriver.takeServer
    split
    · split
      · split <;> exact h
      · exact h
    · exact h
  have s4 : ∀ d : ProxyDriver σ, d.serverClosed = true → (d.pollClient E fin e).serverClosed = true := by
    intro d h
    unfold ProxyDriver.pollClient
    split
    · exact h
    · split <;> exact h
  have s5 : ∀ d : ProxyDriver σ, d.serverClosed = true → (d.giveServer E e).serverClosed = true := by
    intro d h
    unfold ProxyDriver.giveServer
    split <;> exact h
  have s6 : ∀ d : ProxyDriver σ, d.serverClosed = true → (d.giveSocket e).serverClosed = true := by
    intro d h
    unfold ProxyDriver.giveSocket
    split <;> exact h
  have s7 : ∀ d : ProxyDriver σ, d.serverClosed = true → (d.giveApp E e).serverClosed = true := by
    intro d h
    unfold ProxyDriver.giveApp
    split
    · split
      · split <;> exact h
      · exact h
    · exact h
    · exact h
  have s8 : ∀ d : ProxyDriver σ, d.serverClosed = true → (d.close e).serverClosed = true := by
    intro d h
    unfold ProxyDriver.close
    split
    · split
      · exact h
      · exact h
      · split <;> exact h
    · exact h
  unfold ProxyDriver.poll
  have t1 := run _ _ h (s1 _ h)
  have t2 := run _ _ t1 (s2 _ t1)
  have t3 := run _ _ t2 (s3 _ t2)
  have t4 := run _ _ t3 (s4 _ t3)
  have t5 := run _ _ t4 (s5 _ t4)
  have t6 := run _ _ t5 (s6 _ t5)
  have t7 := run _ _ t6 (s7 _ t6)
  exact run _ _ t7 (s8 _ t7)

/-- **C94** The full statement is false: if the server closes before the end of the handshake, then the prover waits for ever,
however often it is polled. -/
theorem C94_eof_in_handshake (fin : Bytes → Nat → TlsBytes → Bool) (es : List Ready) (he : ∀ e ∈ es, e.quiet) :
    let d := ProxyDriver.run toyEngine fin {} (.poll (allReady .eof) :: es.map .poll)
    d.serverClosed = true ∧ d.status = .running ∧ d.output = none := by
  have key : ∀ (es : List Ready) (d : ProxyDriver Toy), (∀ e ∈ es, e.quiet) → Stalled d →
      Stalled ((es.map ProxyAct.poll).foldl (ProxyDriver.step toyEngine fin) d) := by
    intro es
    induction es with
    | nil => exact fun d _ h => h
    | cons e es ih =>
      intro d he h
      rw [List.map_cons, List.foldl_cons, step_poll]
      exact ih _ (fun x hx => he x (by simp [hx])) (stalled_poll fin h (he e (by simp)))
  have keepc : ∀ (es : List Ready) (d : ProxyDriver Toy), d.serverClosed = true →
      ((es.map ProxyAct.poll).foldl (ProxyDriver.step toyEngine fin) d).serverClosed = true := by
    intro es
    induction es with
    | nil => exact fun d h => h
    | cons e es ih =>
      intro d h
      rw [List.map_cons, List.foldl_cons, step_poll]
      exact ih _ (serverClosed_poll fin h)
  have h0 : Stalled ({ client := { conn := {} } } : ProxyDriver Toy) := ⟨rfl, .inl rfl, ⟨rfl, rfl⟩, rfl, rfl, rfl⟩
  have h1 := stalled_poll fin h0 (e := allReady .eof) ⟨.inr rfl, by simp [allReady], by simp [allReady]⟩
  have hc : (({ client := { conn := {} } } : ProxyDriver Toy).poll toyEngine fin (allReady .eof)).serverClosed = true := by
    rfl
  have hrun : ProxyDriver.run toyEngine fin {} (.poll (allReady .eof) :: es.map .poll) =
      (es.map ProxyAct.poll).foldl (ProxyDriver.step toyEngine fin)
        (({ client := { conn := {} } } : ProxyDriver Toy).poll toyEngine fin (allReady .eof)) := by
    unfold ProxyDriver.run
    rw [List.foldl_cons, step_poll]
  intro d
  have hd : d = _ := hrun
  clear_value d
  subst hd
  generalize ({ client := { conn := {} } } : ProxyDriver Toy).poll toyEngine fin (allReady .eof) = d at h1 hc
  have h2 := key es d he h1
  exact ⟨keepc es d hc, h2.running, h2.final.2⟩

end Tlsn.Proxy
