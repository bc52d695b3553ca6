import Verif.Proof.Model

/-!
# Model of the configuration builders

crates/core/src/transcript/commit.rs, crates/core/src/config/prove.rs,
crates/core/src/config/tls_commit/mpc.rs, crates/tlsn/src/deps.rs and crates/mpc-tls/src/config.rs.
-/

namespace Tlsn

/-! ## Transcript commitment configuration -/

/-- Element type of `commits` (crates/core/src/transcript/commit.rs:54, 93).  `TranscriptCommitmentKind` has the single
variant `Hash { alg }` (crates/core/src/transcript/commit.rs:19-25), so a kind is its algorithm identifier. -/
abbrev CommitEntry := (Direction × RangeSet) × HashAlgId

/-- crates/core/src/transcript/commit.rs:90-94 `TranscriptCommitConfigBuilder`.  The hash set of
entries is a list without duplicates. -/
structure CommitBuilder where
  transcript : Transcript
  defaultKind : HashAlgId
  commits : List CommitEntry

/-- crates/core/src/transcript/commit.rs:53-55 `TranscriptCommitConfig`. -/
structure CommitConfig where
  commits : List CommitEntry
  deriving DecidableEq

/-- crates/core/src/transcript/commit.rs:251-253 `TranscriptCommitRequest`. -/
structure CommitRequest where
  hash : List (Direction × RangeSet × HashAlgId)
  deriving DecidableEq

/-- The only error of the builders, `ErrorKind::Index` (crates/core/src/transcript/commit.rs:231-233) and `IndexOutOfBounds`
(crates/core/src/config/prove.rs:191-198). -/
inductive IndexError where
  | index
  deriving DecidableEq, Repr

namespace CommitBuilder

/-- crates/core/src/transcript/commit.rs:98-106 `new`. -/
def new (t : Transcript) : CommitBuilder := ⟨t, .blake3, []⟩

/-- crates/core/src/transcript/commit.rs:109-112 `default_kind`. -/
def setDefaultKind (b : CommitBuilder) (k : HashAlgId) : CommitBuilder := { b with defaultKind := k }

/-- crates/core/src/transcript/commit.rs:130-151 `commit_with_kind_inner`.  `HashSet::insert` keeps an element once. -/
def commitInner (b : CommitBuilder) (idx : RangeSet) (d : Direction) (k : HashAlgId) :
    Except IndexError CommitBuilder :=
  if idx.endD > b.transcript.lenOfDirection d then .error .index
  else .ok { b with commits :=
    if ((d, idx), k) ∈ b.commits then b.commits else ((d, idx), k) :: b.commits }

/-- crates/core/src/transcript/commit.rs:121-128 `commit_with_kind`. -/
def commitWithKind (b : CommitBuilder) (ranges : List Rng) (d : Direction) (k : HashAlgId) :=
  b.commitInner (RangeSet.ofRanges ranges) d k

/-- crates/core/src/transcript/commit.rs:159-169 `commit`. -/
def commit (b : CommitBuilder) (ranges : List Rng) (d : Direction) :=
  b.commitInner (RangeSet.ofRanges ranges) d b.defaultKind

/-- crates/core/src/transcript/commit.rs:176-185 `commit_sent`. -/
def commitSent (b : CommitBuilder) (ranges : List Rng) :=
  b.commitInner (RangeSet.ofRanges ranges) .sent b.defaultKind

/-- crates/core/src/transcript/commit.rs:192-201 `commit_recv`. -/
def commitRecv (b : CommitBuilder) (ranges : List Rng) :=
  b.commitInner (RangeSet.ofRanges ranges) .received b.defaultKind

/-- crates/core/src/transcript/commit.rs:204-208 `build`.  `Vec::from_iter` of a hash set lists the elements in an unspecified
order: `order` is an arbitrary reordering. -/
def build (b : CommitBuilder) (order : List CommitEntry → List CommitEntry) : CommitConfig :=
  ⟨order b.commits⟩

end CommitBuilder

/-- crates/core/src/transcript/commit.rs:64-68 `has_hash`. -/
def CommitConfig.hasHash (c : CommitConfig) : Bool := c.commits.any fun _ => true

/-- crates/core/src/transcript/commit.rs:71-85 `iter_hash` and `to_request`. -/
def CommitConfig.toRequest (c : CommitConfig) : CommitRequest :=
  ⟨c.commits.map fun e => (e.1.1, e.1.2, e.2)⟩

/-- crates/core/src/transcript/commit.rs:257-259 `TranscriptCommitRequest::has_hash`. -/
def CommitRequest.hasHash (r : CommitRequest) : Bool := !r.hash.isEmpty

/-! ## Prove configuration -/

/-- crates/core/src/config/prove.rs:56-61 `ProveConfigBuilder`. -/
structure ProveBuilder where
  transcript : Transcript
  serverIdentity : Bool
  reveal : Option (RangeSet × RangeSet)
  transcriptCommit : Option CommitConfig

/-- crates/core/src/config/prove.rs:13-17 `ProveConfig`. -/
structure ProveConfig where
  serverIdentity : Bool
  reveal : Option (RangeSet × RangeSet)
  transcriptCommit : Option CommitConfig

/-- crates/core/src/config/prove.rs:161-165 `ProveRequest`. -/
structure ProveRequest where
  serverIdentity : Bool
  reveal : Option (RangeSet × RangeSet)
  transcriptCommit : Option CommitRequest

namespace ProveBuilder

/-- crates/core/src/config/prove.rs:65-72 `new`. -/
def new (t : Transcript) : ProveBuilder := ⟨t, false, none, none⟩

/-- `self.reveal.get_or_insert_default()` followed by `union_mut` on one side
(crates/core/src/config/prove.rs:108-112, 128-129, 144-145). -/
def addReveal (b : ProveBuilder) (d : Direction) (idx : RangeSet) : ProveBuilder :=
  let cur := b.reveal.getD (∅, ∅)
  { b with reveal := some (match d with
    | .sent => (cur.1.union idx, cur.2)
    | .received => (cur.1, cur.2.union idx)) }

/-- crates/core/src/config/prove.rs:95-115 `reveal_inner`. -/
def revealInner (b : ProveBuilder) (d : Direction) (idx : RangeSet) :
    Except IndexError ProveBuilder :=
  if idx.endD > b.transcript.lenOfDirection d then .error .index
  else .ok (b.addReveal d idx)

/-- crates/core/src/config/prove.rs:87-93 `reveal`. -/
def revealRanges (b : ProveBuilder) (d : Direction) (ranges : List Rng) :=
  b.revealInner d (RangeSet.ofRanges ranges)

/-- crates/core/src/config/prove.rs:118-123 `reveal_sent`. -/
def revealSent (b : ProveBuilder) (ranges : List Rng) :=
  b.revealInner .sent (RangeSet.ofRanges ranges)

/-- crates/core/src/config/prove.rs:134-139 `reveal_recv`. -/
def revealRecv (b : ProveBuilder) (ranges : List Rng) :=
  b.revealInner .received (RangeSet.ofRanges ranges)

/-- crates/core/src/config/prove.rs:126-131 `reveal_sent_all`. -/
def revealSentAll (b : ProveBuilder) : ProveBuilder :=
  b.addReveal .sent (RangeSet.ofRange 0 (b.transcript.lenOfDirection .sent))

/-- crates/core/src/config/prove.rs:142-147 `reveal_recv_all`. -/
def revealRecvAll (b : ProveBuilder) : ProveBuilder :=
  b.addReveal .received (RangeSet.ofRange 0 (b.transcript.lenOfDirection .received))

/-- crates/core/src/config/prove.rs:75-78 `server_identity`. -/
def setServerIdentity (b : ProveBuilder) : ProveBuilder := { b with serverIdentity := true }

/-- crates/core/src/config/prove.rs:81-84 `transcript_commit`. -/
def setTranscriptCommit (b : ProveBuilder) (c : CommitConfig) : ProveBuilder :=
  { b with transcriptCommit := some c }

/-- crates/core/src/config/prove.rs:150-156 `build`. -/
def build (b : ProveBuilder) : ProveConfig := ⟨b.serverIdentity, b.reveal, b.transcriptCommit⟩

end ProveBuilder

/-- crates/core/src/config/prove.rs:42-51 `to_request`. -/
def ProveConfig.toRequest (c : ProveConfig) : ProveRequest :=
  ⟨c.serverIdentity, c.reveal, c.transcriptCommit.map CommitConfig.toRequest⟩

/-! ## MPC-TLS configuration -/

/-- crates/core/src/config/tls_commit/mpc.rs:189-197 `NetworkSetting`. -/
inductive NetworkSetting where
  | bandwidth
  | latency
  deriving DecidableEq, Repr

/-- crates/core/src/config/tls_commit/mpc.rs:11-29 `MpcTlsConfig`; also the wire form `MpcTlsConfigUnchecked`
(crates/core/src/config/tls_commit/mpc.rs:216-224).  `usize` fields are natural numbers; values come from 64-bit words. -/
structure MpcTlsConfig where
  maxSentData : Nat
  maxSentRecords : Option Nat
  maxRecvDataOnline : Nat
  maxRecvData : Nat
  maxRecvRecordsOnline : Option Nat
  deferDecryption : Bool
  network : NetworkSetting
  deriving DecidableEq, Repr

/-- The errors of crates/core/src/config/tls_commit/mpc.rs:205-210. -/
inductive MpcTlsConfigError where
  | missing (field : String)
  | invalid
  deriving DecidableEq, Repr

/-- crates/core/src/config/tls_commit/mpc.rs:76-89 `validate`. -/
def MpcTlsConfig.validate (c : MpcTlsConfig) : Except MpcTlsConfigError MpcTlsConfig :=
  if c.maxRecvDataOnline > c.maxRecvData then .error .invalid else .ok c

/-- crates/core/src/config/tls_commit/mpc.rs:226-240 `TryFrom<MpcTlsConfigUnchecked>`: what deserialization runs on the wire fields. -/
def MpcTlsConfig.deserialize (wire : MpcTlsConfig) : Except MpcTlsConfigError MpcTlsConfig :=
  wire.validate

/-- crates/core/src/config/tls_commit/mpc.rs:93-101 `MpcTlsConfigBuilder`.  The setters (crates/core/src/config/tls_commit/mpc.rs:105-146) write one field each. -/
structure MpcTlsConfigBuilder where
  maxSentData : Option Nat := none
  maxSentRecords : Option Nat := none
  maxRecvDataOnline : Option Nat := none
  maxRecvData : Option Nat := none
  maxRecvRecordsOnline : Option Nat := none
  deferDecryption : Option Bool := none
  network : Option NetworkSetting := none

/-- crates/core/src/config/tls_commit/mpc.rs:149-181 `build`. -/
def MpcTlsConfigBuilder.build (b : MpcTlsConfigBuilder) : Except MpcTlsConfigError MpcTlsConfig :=
  match b.maxSentData with
  | none => .error (.missing "max_sent_data")
  | some maxSentData =>
    let online := b.maxRecvDataOnline.getD 32
    match b.maxRecvData with
    | none => .error (.missing "max_recv_data")
    | some maxRecvData =>
      MpcTlsConfig.validate
        { maxSentData
          maxSentRecords := b.maxSentRecords
          maxRecvDataOnline := online
          maxRecvData
          maxRecvRecordsOnline := b.maxRecvRecordsOnline
          deferDecryption := b.deferDecryption.getD true
          network := b.network.getD .latency }

/-- crates/mpc-tls/src/config.rs:37-65 `Config`. -/
structure ProtoConfig where
  deferDecryption : Bool
  maxSentRecords : Nat
  maxSent : Nat
  maxRecvRecordsOnline : Nat
  maxRecvOnline : Nat
  maxRecv : Nat
  reducedPrf : Bool
  deriving DecidableEq, Repr

/-- `usize` addition in a release build on a 64-bit target: wraps silently (no profile of
/repo/Cargo.toml enables overflow checks for release builds). -/
def usizeAdd (a b : Nat) : Nat := (a + b) % 2 ^ 64

/-- crates/mpc-tls/src/config.rs:20-32 `default_record_count`. -/
def defaultRecordCount (maxData : Nat) : Nat := usizeAdd 8 ((maxData - 4096 + 4095) / 4096)

/-- crates/mpc-tls/src/config.rs:82-122 `ConfigBuilder::build`, with the three mandatory values given
(`None` models `ValidationError`). -/
def protoBuild (defer : Option Bool) (sentRecords : Option Nat) (maxSent : Nat)
    (recvRecords : Option Nat) (maxRecvOnline maxRecv : Nat) (reduced : Option Bool) :
    Option ProtoConfig :=
  let maxSent' := usizeAdd 32 maxSent
  if maxRecvOnline > maxRecv then none
  else
    let online' := usizeAdd maxRecvOnline 32
    let recv' := usizeAdd maxRecv 32
    some
      { deferDecryption := defer.getD true
        maxSentRecords := sentRecords.getD (usizeAdd 2 (defaultRecordCount maxSent'))
        maxSent := maxSent'
        maxRecvRecordsOnline := recvRecords.getD (usizeAdd 2 (defaultRecordCount online'))
        maxRecvOnline := online'
        maxRecv := recv'
        reducedPrf := reduced.getD false }

/-- crates/tlsn/src/deps.rs:62-84 `build_mpc_tls_config`; `None` is the panic of `unwrap()`. -/
def MpcTlsConfig.toProto (c : MpcTlsConfig) : Option ProtoConfig :=
  protoBuild (some c.deferDecryption) c.maxSentRecords c.maxSentData c.maxRecvRecordsOnline
    c.maxRecvDataOnline c.maxRecvData
    (match c.network with | .latency => some true | .bandwidth => none)

end Tlsn
