import Verif.Proxy.Forward
import Verif.Session.Core
import Verif.TlsTranscript.Model
import Verif.Auth.Session
import Verif.Tags.Model

/-!
# The proxy mode

crates/tlsn/src/proxy.rs, crates/tlsn/src/proxy/verifier.rs, crates/tlsn/src/proxy/prover.rs and
crates/tlsn/src/verifier.rs:309-408.

The virtual machine is the ideal one of `Verif.Prf.Vm`, shared by both parties: the master secret is a private input of the
prover.  What happens after the session keys are known uses the machine of `Verif.Auth.Vm`, see `keyMemory`.
-/

namespace Tlsn.Proxy

open Hmac

/-- The errors of the proxy mode, by where they are raised. -/
inductive ProxyError where
  | forwarding
  | transcript (e : TtError)
  | masterSecretLength
  | machine (e : PrfError)
  | notDecoded
  | state
  | nonceLength
  | ciphertextLength
  | tagSetup (e : TagError)
  | tag (e : TagError)
  | verifyData
  | loops
  deriving DecidableEq, Repr

/-- An error of the machine or the PRF. -/
def onMachine {α : Type} : Outcome PrfError α → Outcome ProxyError α
  | .ok a => .ok a
  | .err e => .err (.machine e)
  | .panic => .panic

/-! ## The check of a finished message -/

/-- crates/tlsn/src/proxy.rs:177-190 `InnerState`. -/
inductive VdCheck where
  | init
  | alloc (nonce counter ciphertext : VecRef) (expected actual : Ref Bytes)
  | assigned (expected actual : Ref Bytes)

/-- The block of the keystream: AES of the salt, the explicit nonce and the counter,
crates/components/cipher/src/aes/mod.rs:95-139 `alloc_ctr_block`. -/
def ctrBlock (aes : AesFn) (key iv nonce counter : Ref Bytes) : Ref Bytes :=
  Ref.map2 (fun k b => (aes k b).toList) key (Ref.map2 (· ++ ·) iv (Ref.map2 (· ++ ·) nonce counter))

/-- crates/tlsn/src/proxy.rs:195-230 `alloc`.  The keystream of sixteen bytes is one block. -/
def VdCheck.allocate (aes : AesFn) (check : VdCheck) (vm : Vm) (key iv expected : VecRef) :
    Outcome ProxyError (VdCheck × Vm) :=
  match check with
  | .init =>
    let (vm, ciphertext) := vm.alloc 16
    let (vm, nonce) := vm.alloc 8
    let (vm, counter) := vm.alloc 4
    let keystream := ctrBlock aes key.val iv.val nonce.val counter.val
    .ok (.alloc nonce counter ciphertext expected.val (Ref.map2 xorBytes ciphertext.val keystream), vm)
  | _ => .err .state

/-- crates/tlsn/src/proxy.rs:232-274 `assign`. -/
def VdCheck.assign (check : VdCheck) (vm : Vm) (nonce ciphertext : Bytes) : Outcome ProxyError (VdCheck × Vm) :=
  match check with
  | .alloc nonceRef counterRef ciphertextRef expected actual =>
    if nonce.length ≠ 8 then .err .nonceLength
    else if ciphertext.length ≠ 16 then .err .ciphertextLength
    else
      onMachine (vm.assign nonceRef nonce) >>= fun vm =>
      onMachine (vm.assign counterRef (beBytes 4 2)) >>= fun vm =>
      onMachine (vm.assign ciphertextRef ciphertext) >>= fun vm =>
        .ok (.assigned expected (actual.map (·.drop 4)), vm)
  | _ => .err .state

/-- crates/tlsn/src/proxy.rs:276-300 `check`. -/
def VdCheck.check (check : VdCheck) (vm : Vm) : Outcome ProxyError Unit :=
  match check with
  | .assigned expected actual =>
    match vm.recv expected, vm.recv actual with
    | some e, some a => if e ≠ a then .err .verifyData else .ok ()
    | _, _ => .err .notDecoded
  | _ => .err .state

/-! ## The parties -/

/-- crates/tlsn/src/proxy.rs:113-117 `References`, with the keys of crates/mpc-tls/src/lib.rs `SessionKeys`. -/
structure References where
  ms : VecRef
  clientKey : VecRef
  clientIv : VecRef
  serverKey : VecRef
  serverIv : VecRef
  serverMacKey : Ref Bytes
  cfVd : VecRef

/-- crates/tlsn/src/proxy/verifier.rs:12-19 `ProxyVerifier` and crates/tlsn/src/proxy/prover.rs:13-20 `ProxyProver`, after allocation. -/
structure Party where
  vm : Vm
  prf : Prf
  refs : References
  cfCheck : VdCheck
  sfCheck : VdCheck

/-- The machine at the start. -/
def emptyVm : Vm := ⟨0, fun _ => none, fun _ => none⟩

/-- crates/tlsn/src/proxy.rs:56-110 `alloc_proxy_refs` and crates/tlsn/src/proxy.rs:24-43 `alloc_ghash_key`, with the constructors and `alloc` of both
parties, crates/tlsn/src/proxy/verifier.rs:22-42 and crates/tlsn/src/proxy/prover.rs:23-46. -/
def Party.alloc (S : Sha) (aes : AesFn) : Outcome ProxyError Party :=
  let (vm, ms) := emptyVm.alloc 48
  onMachine (allocPrf S ⟨.normal, .direct⟩ vm ms) >>= fun (prf, vm, out) =>
    let keys := out.keys
    let mac := Ref.map (fun k => (aes k (List.replicate 16 0)).toList) keys.serverWriteKey.val
    VdCheck.init.allocate aes vm keys.clientWriteKey keys.clientIv out.cfVd >>= fun (cf, vm) =>
    VdCheck.init.allocate aes vm keys.serverWriteKey keys.serverIv out.sfVd >>= fun (sf, vm) =>
      .ok ⟨vm, prf, ⟨ms, keys.clientWriteKey, keys.clientIv, keys.serverWriteKey, keys.serverIv, mac, out.cfVd⟩, cf, sf⟩

/-- The loops of crates/tlsn/src/proxy/verifier.rs:108-116, 135-143 and crates/tlsn/src/proxy/prover.rs:111-119, 138-146, cut off after eleven rounds; the
error `loops` says that a loop has not ended by then. -/
def flushLoop (S : Sha) (p : Party) : Outcome ProxyError Party :=
  match flushPrf S 11 p.prf p.vm with
  | some (.ok (prf, vm)) => .ok { p with prf, vm }
  | some (.err e) => .err (.machine e)
  | some .panic => .panic
  | none => .err .loops

/-- What the two `finalize` have in common: crates/tlsn/src/proxy/verifier.rs:79-159 and crates/tlsn/src/proxy/prover.rs:81-162, after the transcript has been
built.  The master secret is assigned by the prover (crates/tlsn/src/proxy/prover.rs:94-96) and committed by both. -/
def Party.compute (S : Sha) (env : TtEnv) (p : Party) (t : TlsTranscript) (ms : Bytes) : Outcome ProxyError Party :=
  match t.cfHash with
  | none => .panic
  | some cfHash =>
    onMachine (p.vm.assign p.refs.ms ms) >>= fun vm =>
    let prf := p.prf.setClientRandom t.certificateBinding.clientRandom.toList
    onMachine (prf.setServerRandom t.certificateBinding.serverRandom.toList) >>= fun prf =>
    onMachine (prf.setCfHash cfHash) >>= fun prf =>
    flushLoop S { p with vm, prf } >>= fun p =>
    match p.vm.recv p.refs.cfVd.val with
    | none => .err .notDecoded
    | some cfVd =>
      match t.sfHashWith env cfVd with
      | none => .panic
      | some none => .panic
      | some (some sfHash) =>
        onMachine (p.prf.setSfHash sfHash) >>= fun prf =>
        flushLoop S { p with prf } >>= fun p =>
        match t.clientFinished, t.serverFinished with
        | some cf, some sf =>
          p.cfCheck.assign p.vm cf.nonce cf.ciphertext >>= fun (cfCheck, vm) =>
          p.sfCheck.assign vm sf.nonce sf.ciphertext >>= fun (sfCheck, vm) =>
            .ok { p with vm, cfCheck, sfCheck }
        | _, _ => .panic

/-- The builder of crates/tlsn/src/proxy/verifier.rs:67-71. -/
def verifierBuilder (time : Nat) (sent recv : Bytes) : TtBuilder :=
  { time := some time, tlsSent := some sent, tlsRecv := some recv }

/-- crates/tlsn/src/proxy/verifier.rs:52-174 `finalize`; `ms` is the private input of the prover. -/
def verifierFinalize (S : Sha) (env : TtEnv) (p : Party) (sent recv : Bytes) (time : Nat) (ms : Bytes) :
    Outcome ProxyError (Party × TlsTranscript) :=
  match (verifierBuilder time sent recv).build env with
  | .err e => .err (.transcript e)
  | .panic => .panic
  | .ok t => p.compute S env t ms >>= fun p => .ok (p, t)

/-- crates/tlsn/src/proxy.rs:120-125 `TlsBytes`. -/
structure TlsBytes where
  tlsSent : Bytes := []
  tlsRecv : Bytes := []
  appSent : Bytes := []
  appRecv : Bytes := []
  deriving DecidableEq, Repr

/-- The builder of crates/tlsn/src/proxy/prover.rs:62-68. -/
def proverBuilder (time : Nat) (traffic : TlsBytes) : TtBuilder :=
  { time := some time, tlsSent := some traffic.tlsSent, tlsRecv := some traffic.tlsRecv,
    appSent := some traffic.appSent, appRecv := some traffic.appRecv }

/-- crates/tlsn/src/proxy/prover.rs:56-171 `finalize`. -/
def proverFinalize (S : Sha) (env : TtEnv) (p : Party) (ms : Bytes) (time : Nat) (traffic : TlsBytes) :
    Outcome ProxyError (Party × TlsTranscript) :=
  match (proverBuilder time traffic).build env with
  | .err e => .err (.transcript e)
  | .panic => .panic
  | .ok t =>
    if ms.length ≠ 48 then .err .masterSecretLength
    else p.compute S env t ms >>= fun p => .ok (p, t)

/-- The session keys as they lie in the memory of the machine of `Verif.Auth.Vm`, which is the machine for everything that
follows: keys and salts of the client and of the server, and the GHASH key of the server.  `fill` are the private inputs of the
prover in what follows. -/
def keyMemory (fill : Nat → Byte) (vm : Vm) (r : References) : Option ZkVm :=
  match vm.recv r.clientKey.val, vm.recv r.clientIv.val, vm.recv r.serverKey.val, vm.recv r.serverIv.val,
    vm.recv r.serverMacKey with
  | some ck, some ci, some sk, some si, some mac => some ⟨ck ++ (ci ++ (sk ++ (si ++ mac))), fill, [], []⟩
  | _, _, _, _, _ => none

/-- Where the keys are. -/
def keyRefs : KeyRefs := ⟨⟨0, 16⟩, ⟨16, 4⟩, ⟨20, 16⟩, ⟨36, 4⟩⟩

/-- Where the GHASH key is. -/
def macRef : VmVec := ⟨40, 16⟩

/-- crates/tlsn/src/verifier/state.rs `Committed`. -/
structure Committed where
  zk : ZkVm
  transcript : TlsTranscript

/-- crates/tlsn/src/verifier.rs:358-407: the rest of `run` after the forwarding and `finalize`. -/
def verifierChecks (aes : AesFn) (fill : Nat → Byte) (p : Party) (t : TlsTranscript) : Outcome ProxyError Committed :=
  let vm := p.vm.execute
  match keyMemory fill vm p.refs with
  | none => .err .notDecoded
  | some zk =>
    match verifyTags aes zk keyRefs.serverKey keyRefs.serverIv macRef t.version t.recv with
    | .err e => .err (.tagSetup e)
    | .panic => .panic
    | .ok (zk, proof) =>
      match proof.verify with
      | .err e => .err (.tag e)
      | .panic => .panic
      | .ok () =>
        p.cfCheck.check vm >>= fun _ =>
        p.sfCheck.check vm >>= fun _ => .ok ⟨zk, t⟩

/-- crates/tlsn/src/verifier.rs:309-408 `run`, after a history of calls on the two sockets; `none` while the connection is being forwarded. -/
def verifierRun (S : Sha) (env : TtEnv) (aes : AesFn) (fill : Nat → Byte) (ms : Bytes) (es : List (Peer × IoEvent)) :
    Option (Outcome ProxyError Committed) :=
  let f := forward es
  match f.result with
  | none => none
  | some false => some (.err .forwarding)
  | some true => some <|
    match f.sent.firstRead with
    | none => .panic
    | some time =>
      Party.alloc S aes >>= fun p =>
      verifierFinalize S env p f.sent.record f.recv.record time ms >>= fun (p, t) =>
      verifierChecks aes fill p t

end Tlsn.Proxy
