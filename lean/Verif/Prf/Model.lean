import Verif.Prf.Vm

/-!
# Model of crates/components/hmac-sha256/src

`prf.rs` below is crates/components/hmac-sha256/src/prf.rs.
-/

namespace Tlsn.Hmac

/-- crates/components/hmac-sha256/src/config.rs:4-10 `NetworkMode`. -/
inductive NetworkMode where
  | reduced
  | normal
  deriving DecidableEq, Repr

/-- crates/components/hmac-sha256/src/config.rs:12-25 `MSMode`. -/
inductive MsMode where
  | standard
  | extended
  | direct
  deriving DecidableEq, Repr

/-- crates/components/hmac-sha256/src/config.rs:27-34 `PrfConfig`. -/
structure PrfConfig where
  network : NetworkMode
  ms : MsMode
  deriving DecidableEq, Repr

/-- crates/components/hmac-sha256/src/hmac.rs:32 `IPAD`. -/
def ipad : Bytes := List.replicate 64 0x36

/-- crates/components/hmac-sha256/src/hmac.rs:33 `OPAD`. -/
def opad : Bytes := List.replicate 64 0x5c

/-- crates/components/hmac-sha256/src/hmac.rs:42-50 `hmac_sha256`. -/
def hmacRef (S : Sha) (outer : ShaRef) (innerLocal : VecRef) : VecRef :=
  ((outer.update innerLocal).compress S).finalize S

/-- crates/components/hmac-sha256/src/prf.rs:405-435 `compute_partial`.  The padding and the mask are constants.  `64 - key.len()` does not underflow for the
keys in use, which have 32 and 48 bytes. -/
def computePartial (S : Sha) (key : VecRef) (mask : Bytes) : ShaRef :=
  let padded : VecRef := ⟨none, 64, key.val.map fun k => xorBytes (k ++ zeros (64 - key.len)) mask⟩
  ((ShaRef.init S).update padded).compress S

/-- The concatenation of references, the circuit of crates/components/hmac-sha256/src/prf.rs:459-474 `gen_merge_circ`. -/
def concatRefs (l : List VecRef) : Ref Bytes := l.foldr (fun r acc => Ref.map2 (· ++ ·) r.val acc) (Ref.const [])

/-- crates/components/hmac-sha256/src/prf.rs:437-457 `merge_outputs`.  The panic is the assertion. -/
def mergeOutputs (inputs : List VecRef) (outputBytes : Nat) : Outcome PrfError VecRef :=
  if outputBytes ≤ 32 * inputs.length then .ok ⟨none, outputBytes, (concatRefs inputs).map (·.take outputBytes)⟩
  else .panic

/-! ## prf/function/normal.rs -/

/-- The labels, crates/components/hmac-sha256/src/prf/function/normal.rs:25 and crates/components/hmac-sha256/src/prf/function/reduced.rs:47: `"master secret"`. -/
def msLabel : Bytes := "master secret".toUTF8.toList
/-- crates/components/hmac-sha256/src/prf/function/normal.rs:26 and crates/components/hmac-sha256/src/prf/function/reduced.rs:48: `"extended master secret"`. -/
def emsLabel : Bytes := "extended master secret".toUTF8.toList
/-- crates/components/hmac-sha256/src/prf/function/normal.rs:27 and crates/components/hmac-sha256/src/prf/function/reduced.rs:49: `"key expansion"`. -/
def keyLabel : Bytes := "key expansion".toUTF8.toList
/-- crates/components/hmac-sha256/src/prf/function/normal.rs:28 and crates/components/hmac-sha256/src/prf/function/reduced.rs:50: `"client finished"`. -/
def cfLabel : Bytes := "client finished".toUTF8.toList
/-- crates/components/hmac-sha256/src/prf/function/normal.rs:29 and crates/components/hmac-sha256/src/prf/function/reduced.rs:51: `"server finished"`. -/
def sfLabel : Bytes := "server finished".toUTF8.toList

/-- crates/components/hmac-sha256/src/prf/function/normal.rs:161-164 `PHash`. -/
structure NormalHash where
  msg : List VecRef
  output : VecRef

/-- crates/components/hmac-sha256/src/prf/function/normal.rs:167-185 `PHash::alloc`. -/
def NormalHash.alloc (S : Sha) (outer inner : ShaRef) (msg : List VecRef) : NormalHash :=
  let innerLocal := (((msg.foldl ShaRef.update inner).compress S).finalize S)
  ⟨msg, hmacRef S outer innerLocal⟩

/-- crates/components/hmac-sha256/src/prf/function/normal.rs:13-22 `PrfFunction`, with the state as a flag. -/
structure NormalFn where
  label : Bytes
  finished : Bool
  seed : Option Bytes
  a : List NormalHash
  p : List NormalHash

/-- The loop crates/components/hmac-sha256/src/prf/function/normal.rs:133-147. -/
def normalLoop (S : Sha) (outer inner : ShaRef) (seedRef : VecRef) : Nat → VecRef → List NormalHash × List NormalHash
  | 0, _ => ([], [])
  | n + 1, msgA =>
    let a := NormalHash.alloc S outer inner [msgA]
    let p := NormalHash.alloc S outer inner [a.output, seedRef]
    let rest := normalLoop S outer inner seedRef n a.output
    (a :: rest.1, p :: rest.2)

/-- crates/components/hmac-sha256/src/prf/function/normal.rs:111-151 `alloc`.  The assertion on the length of the output holds for the lengths in use. -/
def NormalFn.alloc (S : Sha) (vm : Vm) (label : Bytes) (outer inner : ShaRef) (outputLen seedLen : Nat) : Vm × NormalFn :=
  let (vm1, seedRef) := vm.alloc (label.length + seedLen)
  let l := normalLoop S outer inner seedRef ((outputLen + 31) / 32) seedRef
  (vm1, ⟨label, false, none, l.1, l.2⟩)

/-- crates/components/hmac-sha256/src/prf/function/normal.rs:74-76 `wants_flush`. -/
def NormalFn.wantsFlush (f : NormalFn) : Bool := !f.finished && f.seed.isSome

/-- crates/components/hmac-sha256/src/prf/function/normal.rs:75-92 `flush`. -/
def NormalFn.flush (f : NormalFn) (vm : Vm) : Outcome PrfError (NormalFn × Vm) :=
  if f.finished then .ok (f, vm)
  else match f.a.head?.bind (·.msg.head?), f.seed with
    | some msg, some seed => vm.assign msg seed >>= fun vm1 => .ok ({ f with finished := true }, vm1)
    | _, _ => .panic

/-- crates/components/hmac-sha256/src/prf/function/normal.rs:98-103 `set_start_seed`. -/
def NormalFn.setStartSeed (f : NormalFn) (seed : Bytes) : NormalFn := { f with seed := some (f.label ++ seed) }

/-! ## prf/function/reduced.rs -/

/-- crates/components/hmac-sha256/src/prf/function/reduced.rs:27-44 `PrfState`. -/
inductive ReducedState where
  | innerPartial (inner : Ref HState)
  | computeA (iter : Nat) (inner : HState) (msg : Bytes)
  | computeP (iter : Nat) (inner : HState) (aOutput : Ref Bytes)
  | done

/-- crates/components/hmac-sha256/src/prf/function/reduced.rs:251-254 `AHash` and `PHash`: the input and the output. -/
structure ReducedHash where
  innerLocal : VecRef
  output : VecRef

/-- crates/components/hmac-sha256/src/prf/function/reduced.rs:16-25 `PrfFunction`. -/
structure ReducedFn where
  label : Bytes
  seed : Option Bytes
  iterations : Nat
  state : ReducedState
  a : List ReducedHash
  p : List ReducedHash

/-- The loop crates/components/hmac-sha256/src/prf/function/reduced.rs:207-228. -/
def reducedLoop (S : Sha) (outer : ShaRef) :
    Nat → Vm → List ReducedHash → List ReducedHash → Vm × List ReducedHash × List ReducedHash
  | 0, vm, a, p => (vm, a, p)
  | n + 1, vm, a, p =>
    let (vm1, la) := vm.alloc 32
    let (vm2, lp) := vm1.alloc 32
    reducedLoop S outer n vm2 (⟨la, hmacRef S outer la⟩ :: a) (⟨lp, hmacRef S outer lp⟩ :: p)

/-- crates/components/hmac-sha256/src/prf/function/reduced.rs:180-231 `alloc`. -/
def ReducedFn.alloc (S : Sha) (vm : Vm) (label : Bytes) (outer inner : ShaRef) (len : Nat) : Vm × ReducedFn :=
  let iterations := (len + 31) / 32
  let (vm1, a, p) := reducedLoop S outer iterations vm [] []
  (vm1, ⟨label, none, iterations, .innerPartial inner.st, a, p⟩)

/-- crates/components/hmac-sha256/src/prf/function/reduced.rs:165-167 `is_done`. -/
def ReducedFn.isDone (f : ReducedFn) : Bool :=
  match f.state with
  | .done => true
  | _ => false

/-- crates/components/hmac-sha256/src/prf/function/reduced.rs:91-93 `wants_flush`. -/
def ReducedFn.wantsFlush (f : ReducedFn) : Bool := !f.isDone && f.seed.isSome

/-- crates/components/hmac-sha256/src/prf/function/reduced.rs:233-247 `assign_inner_local`. -/
def assignInnerLocal (S : Sha) (vm : Vm) (r : VecRef) (inner : HState) (msg : Bytes) : Outcome PrfError Vm :=
  vm.assign r (stateToBytes (localSha256 S inner 64 msg))

/-- The branch crates/components/hmac-sha256/src/prf/function/reduced.rs:112-125 for `ComputeA`. -/
def ReducedFn.flushA (S : Sha) (f : ReducedFn) (vm : Vm) (iter : Nat) (inner : HState) (msg : Bytes) :
    Outcome PrfError (ReducedFn × Vm) :=
  match f.a with
  | [] => .panic
  | a :: rest =>
    assignInnerLocal S vm a.innerLocal inner msg >>= fun vm1 =>
      .ok ({ f with a := rest, state := .computeP iter inner a.output.val }, vm1)

/-- The branch crates/components/hmac-sha256/src/prf/function/reduced.rs:126-158 for `ComputeP`; the recursive call is always the branch `ComputeA`. -/
def ReducedFn.flushP (S : Sha) (f : ReducedFn) (vm : Vm) (iter : Nat) (inner : HState) (aOutput : Ref Bytes) :
    Outcome PrfError (ReducedFn × Vm) :=
  match vm.recv aOutput with
  | none => .ok (f, vm)
  | some output =>
    match f.p, f.seed with
    | p :: rest, some seed =>
      assignInnerLocal S vm p.innerLocal inner (output ++ seed) >>= fun vm1 =>
        if iter = f.iterations then .ok ({ f with p := rest, state := .done }, vm1)
        else ({ f with p := rest, state := .computeA (iter + 1) inner output } : ReducedFn).flushA S vm1 (iter + 1) inner output
    | _, _ => .panic

/-- crates/components/hmac-sha256/src/prf/function/reduced.rs:95-163 `flush`. -/
def ReducedFn.flush (S : Sha) (f : ReducedFn) (vm : Vm) : Outcome PrfError (ReducedFn × Vm) :=
  match f.state with
  | .innerPartial r =>
    match vm.recv r with
    | none => .ok (f, vm)
    | some inner =>
      match f.seed with
      | none => .panic
      | some seed => ({ f with state := .computeA 1 inner seed } : ReducedFn).flushA S vm 1 inner seed
  | .computeA iter inner msg => f.flushA S vm iter inner msg
  | .computeP iter inner aOutput => f.flushP S vm iter inner aOutput
  | .done => .ok (f, vm)

/-- crates/components/hmac-sha256/src/prf/function/reduced.rs:168-173 `set_start_seed`. -/
def ReducedFn.setStartSeed (f : ReducedFn) (seed : Bytes) : ReducedFn := { f with seed := some (f.label ++ seed) }

/-! ## prf/function.rs -/

/-- crates/components/hmac-sha256/src/prf/function.rs:16-20 `InnerPrf`. -/
inductive InnerPrf where
  | reduced (f : ReducedFn)
  | normal (f : NormalFn)

/-- crates/components/hmac-sha256/src/prf/function.rs:22-112: the four allocations, which differ in the label, the length of the output and the length of the
seed. -/
def InnerPrf.alloc (S : Sha) (vm : Vm) (n : NetworkMode) (label : Bytes) (outer inner : ShaRef) (outputLen seedLen : Nat) :
    Vm × InnerPrf :=
  match n with
  | .reduced =>
    let (vm1, f) := ReducedFn.alloc S vm label outer inner outputLen
    (vm1, .reduced f)
  | .normal =>
    let (vm1, f) := NormalFn.alloc S vm label outer inner outputLen seedLen
    (vm1, .normal f)

/-- crates/components/hmac-sha256/src/prf/function.rs:114-119 `wants_flush`. -/
def InnerPrf.wantsFlush : InnerPrf → Bool
  | .reduced f => f.wantsFlush
  | .normal f => f.wantsFlush

/-- crates/components/hmac-sha256/src/prf/function.rs:121-126 `flush`. -/
def InnerPrf.flush (S : Sha) (vm : Vm) : InnerPrf → Outcome PrfError (InnerPrf × Vm)
  | .reduced f => f.flush S vm >>= fun r => .ok (.reduced r.1, r.2)
  | .normal f => f.flush vm >>= fun r => .ok (.normal r.1, r.2)

/-- crates/components/hmac-sha256/src/prf/function.rs:128-133 `is_done`. -/
def InnerPrf.isDone : InnerPrf → Bool
  | .reduced f => f.isDone
  | .normal f => f.finished

/-- crates/components/hmac-sha256/src/prf/function.rs:135-140 `set_start_seed`. -/
def InnerPrf.setStartSeed (seed : Bytes) : InnerPrf → InnerPrf
  | .reduced f => .reduced (f.setStartSeed seed)
  | .normal f => .normal (f.setStartSeed seed)

/-- crates/components/hmac-sha256/src/prf/function.rs:142-147 `output`. -/
def InnerPrf.output : InnerPrf → List VecRef
  | .reduced f => f.p.map (·.output)
  | .normal f => f.p.map (·.output)

/-! ## prf.rs -/

/-- crates/components/hmac-sha256/src/lib.rs:35-44 `SessionKeys`. -/
structure SessionKeys where
  clientWriteKey : VecRef
  serverWriteKey : VecRef
  clientIv : VecRef
  serverIv : VecRef

/-- crates/components/hmac-sha256/src/lib.rs:22-31 `PrfOutput`. -/
structure PrfOutput where
  keys : SessionKeys
  cfVd : VecRef
  sfVd : VecRef

/-- `Vector::split_off(at)` of the machine's memory: the first part and the rest. -/
def VecRef.splitOff (v : VecRef) (n : Nat) : VecRef × VecRef :=
  (⟨none, n, v.val.map (·.take n)⟩, ⟨none, v.len - n, v.val.map (·.drop n)⟩)

/-- crates/components/hmac-sha256/src/prf.rs:354-375 `get_session_keys`. -/
def getSessionKeys (output : List VecRef) : Outcome PrfError SessionKeys :=
  mergeOutputs output 40 >>= fun keys =>
    let (keys, serverIv) := keys.splitOff 36
    let (keys, clientIv) := keys.splitOff 32
    let (clientWriteKey, serverWriteKey) := keys.splitOff 16
    .ok { clientWriteKey, serverWriteKey, clientIv, serverIv }

/-- crates/components/hmac-sha256/src/prf.rs:28-41 `State::Setup`. -/
structure PrfFns where
  masterSecret : Option InnerPrf
  keyExpansion : InnerPrf
  clientFinished : InnerPrf
  serverFinished : InnerPrf

/-- crates/components/hmac-sha256/src/prf.rs:28-41 `State`.  The state `Error` is the end of a call that failed. -/
inductive PrfState where
  | initialized
  | setup (f : PrfFns)
  | complete

/-- crates/components/hmac-sha256/src/prf.rs:20-26 `Prf`. -/
structure Prf where
  config : PrfConfig
  state : PrfState
  clientRandom : Option Bytes

/-- crates/components/hmac-sha256/src/prf.rs:55-61 `new`. -/
def Prf.new (config : PrfConfig) : Prf := ⟨config, .initialized, none⟩

/-- crates/components/hmac-sha256/src/prf.rs:131-173 `alloc_post_ms`; `get_client_finished_vd` and `get_server_finished_vd` are crates/components/hmac-sha256/src/prf.rs:377-395. -/
def Prf.allocPostMs (S : Sha) (prf : Prf) (vm : Vm) (ms : VecRef) (masterSecret : Option InnerPrf) :
    Outcome PrfError (Prf × Vm × PrfOutput) :=
  let outer := computePartial S ms opad
  let inner := computePartial S ms ipad
  let (vm1, ke) := InnerPrf.alloc S vm prf.config.network keyLabel outer inner 40 64
  let (vm2, cf) := InnerPrf.alloc S vm1 prf.config.network cfLabel outer inner 12 32
  let (vm3, sf) := InnerPrf.alloc S vm2 prf.config.network sfLabel outer inner 12 32
  getSessionKeys ke.output >>= fun keys =>
  mergeOutputs cf.output 12 >>= fun cfVd =>
  mergeOutputs sf.output 12 >>= fun sfVd =>
    .ok ({ prf with state := .setup ⟨masterSecret, ke, cf, sf⟩ }, vm3, ⟨keys, cfVd, sfVd⟩)

/-- crates/components/hmac-sha256/src/prf.rs:74-100 `alloc_pms`, with crates/components/hmac-sha256/src/prf/function.rs:23-50 `alloc_master_secret`. -/
def Prf.allocPms (S : Sha) (prf : Prf) (vm : Vm) (pms : VecRef) : Outcome PrfError (Prf × Vm × PrfOutput) :=
  let go (label : Bytes) (seedLen : Nat) : Outcome PrfError (Prf × Vm × PrfOutput) :=
    match prf.state with
    | .initialized =>
      let outer := computePartial S pms opad
      let inner := computePartial S pms ipad
      let (vm1, ms) := InnerPrf.alloc S vm prf.config.network label outer inner 48 seedLen
      mergeOutputs ms.output 48 >>= fun msRef => prf.allocPostMs S vm1 msRef (some ms)
    | _ => .err .state
  match prf.config.ms with
  | .direct => .err .config
  | .standard => go msLabel 64
  | .extended => go emsLabel 32

/-- crates/components/hmac-sha256/src/prf.rs:112-129 `alloc_ms`. -/
def Prf.allocMs (S : Sha) (prf : Prf) (vm : Vm) (ms : VecRef) : Outcome PrfError (Prf × Vm × PrfOutput) :=
  match prf.config.ms, prf.state with
  | .direct, .initialized => prf.allocPostMs S vm ms none
  | .direct, _ => .err .state
  | _, _ => .err .config

/-- crates/components/hmac-sha256/src/prf.rs:181-183 `set_client_random`. -/
def Prf.setClientRandom (prf : Prf) (random : Bytes) : Prf := { prf with clientRandom := some random }

/-- crates/components/hmac-sha256/src/prf.rs:191-220 `set_server_random`.  The panics are the two `expect`. -/
def Prf.setServerRandom (prf : Prf) (random : Bytes) : Outcome PrfError Prf :=
  match prf.state with
  | .setup f =>
    match prf.clientRandom with
    | none => .panic
    | some cr =>
      let set (ms : Option InnerPrf) : Outcome PrfError Prf :=
        .ok { prf with state := .setup { f with masterSecret := ms,
                                                keyExpansion := f.keyExpansion.setStartSeed (random ++ cr) } }
      match prf.config.ms, f.masterSecret with
      | .standard, some ms => set (some (ms.setStartSeed (cr ++ random)))
      | .standard, none => .panic
      | _, ms => set ms
  | _ => .err .state

/-- crates/components/hmac-sha256/src/prf.rs:230-246 `set_session_hash`. -/
def Prf.setSessionHash (prf : Prf) (seed : Bytes) : Outcome PrfError Prf :=
  match prf.state with
  | .setup f =>
    match prf.config.ms, f.masterSecret with
    | .extended, some ms => .ok { prf with state := .setup { f with masterSecret := some (ms.setStartSeed seed) } }
    | .extended, none => .panic
    | _, _ => .err .config
  | _ => .err .state

/-- crates/components/hmac-sha256/src/prf.rs:254-266 `set_cf_hash`. -/
def Prf.setCfHash (prf : Prf) (hash : Bytes) : Outcome PrfError Prf :=
  match prf.state with
  | .setup f => .ok { prf with state := .setup { f with clientFinished := f.clientFinished.setStartSeed hash } }
  | _ => .err .state

/-- crates/components/hmac-sha256/src/prf.rs:274-286 `set_sf_hash`. -/
def Prf.setSfHash (prf : Prf) (hash : Bytes) : Outcome PrfError Prf :=
  match prf.state with
  | .setup f => .ok { prf with state := .setup { f with serverFinished := f.serverFinished.setStartSeed hash } }
  | _ => .err .state

/-- crates/components/hmac-sha256/src/prf.rs:289-306 `wants_flush`. -/
def Prf.wantsFlush (prf : Prf) : Bool :=
  match prf.state with
  | .setup f =>
    f.masterSecret.any (·.wantsFlush) || f.keyExpansion.wantsFlush || f.clientFinished.wantsFlush ||
      f.serverFinished.wantsFlush
  | _ => false

/-- `if f.wants_flush() { f.flush(vm)?; }`, crates/components/hmac-sha256/src/prf.rs:317-331. -/
def InnerPrf.flushIfWanted (S : Sha) (vm : Vm) (f : InnerPrf) : Outcome PrfError (InnerPrf × Vm) :=
  if f.wantsFlush then f.flush S vm else .ok (f, vm)

/-- crates/components/hmac-sha256/src/prf.rs:317-321: the same for the master secret, if there is one. -/
def flushOption (S : Sha) (vm : Vm) : Option InnerPrf → Outcome PrfError (Option InnerPrf × Vm)
  | none => .ok (none, vm)
  | some f => f.flushIfWanted S vm >>= fun r => .ok (some r.1, r.2)

/-- crates/components/hmac-sha256/src/prf.rs:309-352 `flush`. -/
def Prf.flush (S : Sha) (prf : Prf) (vm : Vm) : Outcome PrfError (Prf × Vm) :=
  match prf.state with
  | .setup f =>
    flushOption S vm f.masterSecret >>= fun (ms, vm1) =>
    f.keyExpansion.flushIfWanted S vm1 >>= fun (ke, vm2) =>
    f.clientFinished.flushIfWanted S vm2 >>= fun (cf, vm3) =>
    f.serverFinished.flushIfWanted S vm3 >>= fun (sf, vm4) =>
      if ms.all (·.isDone) && ke.isDone && cf.isDone && sf.isDone then .ok ({ prf with state := .complete }, vm4)
      else .ok ({ prf with state := .setup ⟨ms, ke, cf, sf⟩ }, vm4)
  | _ => .ok (prf, vm)

/-- crates/mpc-tls/src/utils.rs:91-103 `flush_prf`: the loop, cut off after a number of rounds.  `none` means that it has
not ended by then. -/
def flushPrf (S : Sha) : Nat → Prf → Vm → Option (Outcome PrfError (Prf × Vm))
  | 0, prf, vm => if prf.wantsFlush then none else some (.ok (prf, vm))
  | n + 1, prf, vm =>
    if prf.wantsFlush then
      match prf.flush S vm with
      | .ok (prf1, vm1) => flushPrf S n prf1 vm1.execute
      | .err e => some (.err e)
      | .panic => some .panic
    else some (.ok (prf, vm))

/-! ## crates/tls-core/src/prf.rs -/

/-- crates/tls-core/src/prf.rs:29-46: the loop over the chunks of the output.  `mac` is the HMAC of the `hmac` crate under
the secret; a `Mac` in progress is the bytes it has been given. -/
def softLoop (mac : Bytes → Bytes) (label seed : Bytes) : List Nat → Bytes → Bytes
  | [], _ => []
  | n :: ns, currentA =>
    let a := mac currentA
    (mac (a ++ label ++ seed)).take n ++ softLoop mac label seed ns a

/-- The lengths of `out.chunks_mut(32)`. -/
def chunkLengths (n : Nat) : List Nat :=
  List.replicate (n / 32) 32 ++ (if n % 32 = 0 then [] else [n % 32])

/-- crates/tls-core/src/prf.rs:19-49 `prf`.  HMAC takes keys of any length. -/
def softPrf (hmac : Bytes → Bytes → Bytes) (outLen : Nat) (secret label seed : Bytes) : Bytes :=
  softLoop (hmac secret) label seed (chunkLengths outLen) (label ++ seed)

end Tlsn.Hmac
