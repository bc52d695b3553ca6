import Verif.Proxy.Props
import Verif.Protocol.Errors

/-! # The kind of an error of the verifier's `run` in proxy mode -/

namespace Tlsn.Proxy

open Tlsn.Protocol (ErrorKind)

/-- The kind of the error of each site: crates/tlsn/src/verifier.rs:345-349 (the forwarding is `io`), 367-387 (tags) and
390-391; crates/tlsn/src/proxy/verifier.rs:72-76, 85-91 and 93-143; crates/tlsn/src/proxy.rs:245-250 and 283-297 (the last check is `user`). -/
def ProxyError.kind : ProxyError → ErrorKind
  | .forwarding => .io
  | .transcript _ => .internal
  | .masterSecretLength => .internal
  | .machine _ => .internal
  | .notDecoded => .internal
  | .state => .internal
  | .nonceLength => .internal
  | .ciphertextLength => .internal
  | .tagSetup _ => .internal
  | .tag _ => .internal
  | .verifyData => .user
  | .loops => .internal

/-- Specification.  A finished message of the connection decrypts to something else than the PRF gives. -/
def VdCheck.Differs (check : VdCheck) (vm : Hmac.Vm) : Prop :=
  ∃ (expected actual : Hmac.Ref Bytes) (e a : Bytes), check = .assigned expected actual ∧ vm.recv expected = some e ∧
    vm.recv actual = some a ∧ e ≠ a

/-- Specification.  The connection was forwarded to its end, and one of its finished messages is not the one that the
PRF gives for the master secret. -/
def FinishedDiffers (S : Hmac.Sha) (env : TtEnv) (aes : AesFn) (ms : Bytes) (es : List (Peer × IoEvent)) : Prop :=
  ∃ time party p t, (forward es).result = some true ∧ (forward es).sent.firstRead = some time ∧
    Party.alloc S aes = .ok party ∧
    verifierFinalize S env party (forward es).sent.record (forward es).recv.record time ms = .ok (p, t) ∧
    (p.cfCheck.Differs p.vm.execute ∨ p.sfCheck.Differs p.vm.execute)

/-- An outcome that is no error, or an internal one. -/
def AtMostInternal {α : Type} (o : Outcome ProxyError α) : Prop := ∀ e, o = .err e → e.kind = .internal

theorem internal_bind {α β : Type} {o : Outcome ProxyError α} {f : α → Outcome ProxyError β} (ho : AtMostInternal o)
    (hf : ∀ a, AtMostInternal (f a)) : AtMostInternal (o >>= f) := by
  intro e h
  cases o with
  | ok a => exact hf a e h
  | err e' => cases h; exact ho _ rfl
  | panic => cases h

theorem internal_ok {α : Type} (a : α) : AtMostInternal (.ok a : Outcome ProxyError α) := fun _ h => nomatch h

theorem internal_panic {α : Type} : AtMostInternal (.panic : Outcome ProxyError α) := fun _ h => nomatch h

theorem internal_machine {α : Type} (o : Outcome Hmac.PrfError α) : AtMostInternal (onMachine o) := by
  intro e h
  cases o <;> cases h
  rfl

theorem internal_allocate (aes : AesFn) (c : VdCheck) (vm : Hmac.Vm) (k i x : Hmac.VecRef) :
    AtMostInternal (c.allocate aes vm k i x) := by
  intro e h
  unfold VdCheck.allocate at h
  split at h
  · cases h
  · cases h
    rfl

theorem internal_assign (c : VdCheck) (vm : Hmac.Vm) (n x : Bytes) : AtMostInternal (c.assign vm n x) := by
  unfold VdCheck.assign
  split
  · split
    · intro e h
      cases h
      rfl
    split
    · intro e h
      cases h
      rfl
    exact internal_bind (internal_machine _) fun _ => internal_bind (internal_machine _) fun _ =>
      internal_bind (internal_machine _) fun _ => internal_ok _
  · intro e h
    cases h
    rfl

theorem internal_alloc (S : Hmac.Sha) (aes : AesFn) : AtMostInternal (Party.alloc S aes) := by
  unfold Party.alloc
  exact internal_bind (internal_machine _) fun _ => internal_bind (internal_allocate _ _ _ _ _ _) fun _ =>
    internal_bind (internal_allocate _ _ _ _ _ _) fun _ => internal_ok _

theorem internal_flush (S : Hmac.Sha) (p : Party) : AtMostInternal (flushLoop S p) := by
  intro e h
  unfold flushLoop at h
  split at h <;> cases h <;> rfl

theorem internal_compute (S : Hmac.Sha) (env : TtEnv) (p : Party) (t : TlsTranscript) (ms : Bytes) :
    AtMostInternal (p.compute S env t ms) := by
  unfold Party.compute
  split
  · exact internal_panic
  refine internal_bind (internal_machine _) fun _ => internal_bind (internal_machine _) fun _ =>
    internal_bind (internal_machine _) fun _ => internal_bind (internal_flush _ _) fun _ => ?_
  split
  · intro e h
    cases h
    rfl
  split
  · exact internal_panic
  · exact internal_panic
  refine internal_bind (internal_machine _) fun _ => internal_bind (internal_flush _ _) fun _ => ?_
  split
  · exact internal_bind (internal_assign _ _ _ _) fun _ => internal_bind (internal_assign _ _ _ _) fun _ => internal_ok _
  · exact internal_panic

theorem internal_finalize (S : Hmac.Sha) (env : TtEnv) (p : Party) (sent recv : Bytes) (time : Nat) (ms : Bytes) :
    AtMostInternal (verifierFinalize S env p sent recv time ms) := by
  unfold verifierFinalize
  split
  · intro e h
    cases h
    rfl
  · exact internal_panic
  · exact internal_bind (internal_compute _ _ _ _ _) fun _ => internal_ok _

theorem check_err {c : VdCheck} {vm : Hmac.Vm} {e : ProxyError} (h : c.check vm = .err e) :
    e.kind ≠ .io ∧ e.kind ≠ .config ∧ (e.kind = .user → c.Differs vm) := by
  unfold VdCheck.check at h
  split at h
  · rename_i expected actual
    split at h
    · rename_i x a hx ha
      split at h
      · rename_i hne
        cases h
        exact ⟨by decide, by decide, fun _ => ⟨expected, actual, x, a, rfl, hx, ha, hne⟩⟩
      · cases h
    · cases h
      exact ⟨by decide, by decide, fun h => nomatch h⟩
  · cases h
    exact ⟨by decide, by decide, fun h => nomatch h⟩

theorem check_differs {c : VdCheck} {vm : Hmac.Vm} (h : c.Differs vm) : c.check vm = .err .verifyData := by
  obtain ⟨expected, actual, e, a, rfl, he, ha, hne⟩ := h
  simp only [VdCheck.check, he, ha, ne_eq, hne, not_false_eq_true, if_true]

theorem checks_err {aes : AesFn} {fill : Nat → Byte} {p : Party} {t : TlsTranscript} {e : ProxyError}
    (h : verifierChecks aes fill p t = .err e) :
    e.kind ≠ .io ∧ e.kind ≠ .config ∧ (e.kind = .user → p.cfCheck.Differs p.vm.execute ∨ p.sfCheck.Differs p.vm.execute) := by
  unfold verifierChecks at h
  dsimp only at h
  split at h
  · cases h
    exact ⟨by decide, by decide, fun h => nomatch h⟩
  split at h
  · cases h
    exact ⟨(fun h => nomatch h), (fun h => nomatch h), fun h => nomatch h⟩
  · cases h
  split at h
  · cases h
    exact ⟨(fun h => nomatch h), (fun h => nomatch h), fun h => nomatch h⟩
  · cases h
  cases hc : p.cfCheck.check p.vm.execute with
  | panic => rw [hc] at h; cases h
  | err e' =>
    rw [hc] at h
    cases h
    exact ⟨(check_err hc).1, (check_err hc).2.1, fun hu => .inl ((check_err hc).2.2 hu)⟩
  | ok u =>
    rw [hc] at h
    cases hs : p.sfCheck.check p.vm.execute with
    | panic => rw [hs] at h; cases h
    | err e' =>
      rw [hs] at h
      cases h
      exact ⟨(check_err hs).1, (check_err hs).2.1, fun hu => .inr ((check_err hs).2.2 hu)⟩
    | ok u' => rw [hs] at h; cases h

/-- **C137**: an error of the verifier's `run` in proxy mode is an io error exactly if the forwarding failed, never a
config error, and a user error only if a finished message of the connection that was forwarded is not the one that
the PRF gives; all else is internal. -/
theorem C137_proxy_run (S : Hmac.Sha) (env : TtEnv) (aes : AesFn) (fill : Nat → Byte) (ms : Bytes)
    (es : List (Peer × IoEvent)) (e : ProxyError) (h : verifierRun S env aes fill ms es = some (.err e)) :
    (e.kind = .io ↔ (forward es).result = some false) ∧ e.kind ≠ .config ∧
    (e.kind = .user → FinishedDiffers S env aes ms es) := by
  unfold verifierRun at h
  dsimp only at h
  split at h
  · cases h
  · rename_i hf
    cases h
    exact ⟨⟨fun _ => hf, fun _ => rfl⟩, by decide, fun h => nomatch h⟩
  · rename_i hf
    have hr : ¬ (forward es).result = some false := by rw [hf]; simp
    split at h
    · cases h
    rename_i time ht
    have h := Option.some.inj h
    have fin : ∀ {e : ProxyError}, e.kind = .internal →
        (e.kind = .io ↔ (forward es).result = some false) ∧ e.kind ≠ .config ∧
        (e.kind = .user → FinishedDiffers S env aes ms es) := by
      intro e hk
      rw [hk]
      exact ⟨⟨(fun h => nomatch h), fun h => absurd h hr⟩, by decide, fun h => nomatch h⟩
    cases ha : Party.alloc S aes with
    | panic => rw [ha] at h; cases h
    | err e' => rw [ha] at h; cases h; exact fin (internal_alloc S aes _ ha)
    | ok party =>
      rw [ha] at h
      change verifierFinalize S env party _ _ time ms >>= _ = _ at h
      cases hz : verifierFinalize S env party (forward es).sent.record (forward es).recv.record time ms with
      | panic => rw [hz] at h; cases h
      | err e' => rw [hz] at h; cases h; exact fin (internal_finalize S env party _ _ _ _ _ hz)
      | ok q =>
        rw [hz] at h
        have hc := checks_err (show verifierChecks aes fill q.1 q.2 = .err e from h)
        exact ⟨⟨fun hi => absurd hi hc.1, fun h => absurd h hr⟩, hc.2.1,
          fun hu => ⟨time, party, q.1, q.2, hf, ht, ha, hz, hc.2.2 hu⟩⟩

/-- **C137**: if the keys are known and the tags are good, a finished message of the server that is not the one the PRF
gives makes the check fail with a user error, although nobody rejected anything; so does one of the client. -/
theorem C137_proxy_finished (aes : AesFn) (fill : Nat → Byte) (p : Party) (t : TlsTranscript) (zk zk' : ZkVm)
    (proof : TagProof) (hk : keyMemory fill p.vm.execute p.refs = some zk)
    (hv : verifyTags aes zk keyRefs.serverKey keyRefs.serverIv macRef t.version t.recv = .ok (zk', proof))
    (hp : proof.verify = .ok ()) :
    (p.cfCheck.Differs p.vm.execute ∨ p.cfCheck.check p.vm.execute = .ok () ∧ p.sfCheck.Differs p.vm.execute) ↔
      ∃ e, verifierChecks aes fill p t = .err e ∧ e.kind = .user := by
  have hrun : verifierChecks aes fill p t =
      (p.cfCheck.check p.vm.execute >>= fun _ => p.sfCheck.check p.vm.execute >>= fun _ => .ok ⟨zk', t⟩) := by
    unfold verifierChecks
    simp only [hk, hv, hp]
  rw [hrun]
  constructor
  · rintro (h | ⟨h1, h2⟩)
    · exact ⟨.verifyData, by rw [check_differs h]; rfl, rfl⟩
    · exact ⟨.verifyData, by rw [h1, check_differs h2]; rfl, rfl⟩
  · rintro ⟨e, he, hu⟩
    cases hc : p.cfCheck.check p.vm.execute with
    | panic => rw [hc] at he; cases he
    | err e' => rw [hc] at he; cases he; exact .inl ((check_err hc).2.2 hu)
    | ok u =>
      rw [hc] at he
      cases hs : p.sfCheck.check p.vm.execute with
      | panic => rw [hs] at he; cases he
      | err e' => rw [hs] at he; cases he; exact .inr ⟨rfl, (check_err hs).2.2 hu⟩
      | ok u' => rw [hs] at he; cases he

namespace Example

/-- Example for `C137_proxy_run` and `C137_proxy_finished`: the connection of `Verif/Proxy/Props.lean` with something else
in place of the client's finished message, and with another tag; and a socket that fails. -/
example :
    let kind := fun es => match verifierRun toySha env exAes (fun _ => 0) secret es with
      | some (.err e) => some e.kind
      | _ => none
    kind (history (sent.map fun m =>
      if m.payload.take 8 = List.replicate 8 1 then untagged .handshake (List.replicate 8 1) (List.replicate 16 0) else m)
      recv) = some .user ∧
    kind (history sent (recv.map fun m =>
      if m.typ = .applicationData then { m with payload := m.payload.dropLast ++ [0] } else m)) = some .internal ∧
    kind [(.server, .error)] = some .io := by decide +kernel

end Example

end Tlsn.Proxy
