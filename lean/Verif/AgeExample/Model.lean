import Verif.Protocol.Model

/-! # The age example: a prover shows that a date of birth is more than 18 years ago (crates/examples-zk)

The verifier of the example takes the output of a session and a zero-knowledge proof for a Noir program.  Modelled are
the Noir program with the functions of the date library that it calls (the sources are in
crates/examples-zk/noir/target/noir.json), and the checks of the verifier.  Parameters: the proof system, the
verification key, SHA-256 and UTF-8. -/

namespace Tlsn.Age

/-! ## The Noir program -/

/-- `Date` of the date library, date.nr:7-11; `day` and `month` are `u8`, `year` is `u32` (see `Date.Typed`). -/
structure Date where
  day : Nat
  month : Nat
  year : Nat
  deriving DecidableEq, Repr

/-- The ranges of the types of the fields, date.nr:8-10.  The circuit constrains public inputs to them. -/
def Date.Typed (d : Date) : Prop := d.day < 256 ∧ d.month < 256 ∧ d.year < 2 ^ 32

/-- date.nr:13-16 `get_number_from_utf8_code`; `none`: the assertion fails. -/
def digit (c : Byte) : Option Nat := if 48 ≤ c.toNat ∧ c.toNat ≤ 57 then some (c.toNat - 48) else none

/-- date.nr:64-86 `from_bytes_long_year`; the argument is an array of eight bytes. -/
def fromBytesLongYear : Bytes → Option Date
  | [a, b, c, d, e, f, g, h] =>
    match digit a, digit b, digit c, digit d, digit e, digit f, digit g, digit h with
    | some a, some b, some c, some d, some e, some f, some g, some h =>
      some ⟨g * 10 + h, e * 10 + f, a * 1000 + b * 100 + c * 10 + d⟩
    | _, _, _, _, _, _, _, _ => none
  | _ => none

/-- crates/examples-zk/noir/src/main.nr:45-50 `parse_birth_date`; the argument is a text of ten bytes. -/
def parseBirthDate : Bytes → Option Date
  | [a, b, c, d, _, e, f, _, g, h] => fromBytesLongYear [a, b, c, d, e, f, g, h]
  | _ => none

/-- date.nr:287-289 `is_leap_year`. -/
def isLeapYear (y : Nat) : Bool := ((y % 4 == 0) && (y % 100 != 0)) || (y % 400 == 0)

/-- date.nr:291-293 `leap_year_count`; the quotients are below 2^30, so that the `i32` do not overflow. -/
def leapYearCount (y : Nat) : Int := (y / 4 : Nat) - (y / 100 : Nat) + (y / 400 : Nat)

/-- date.nr:295-316 `get_days_in_month`, after its assertion, which the callers below meet. -/
def daysInMonth (leap : Bool) (m : Nat) : Nat :=
  if m = 2 then (if leap then 29 else 28)
  else if m = 1 ∨ m = 3 ∨ m = 5 ∨ m = 7 ∨ m = 8 ∨ m = 10 ∨ m = 12 then 31 else 30

/-- The loops of date.nr:323-327 and 329-333: the days of the months from `a` up to, not including, `b`. -/
def daysBetween (leap : Bool) (a b : Nat) : Nat :=
  (List.range' 1 12).foldl (fun s m => if a ≤ m ∧ m < b then s + daysInMonth leap m else s) 0

/-- date.nr:318-336 `get_duration_between_months`. -/
def durationBetweenMonths (s o : Date) : Option Int :=
  if (1 ≤ s.month ∧ s.month ≤ 12) ∧ (1 ≤ o.month ∧ o.month ≤ 12) then
    if s.month < o.month then some (-(daysBetween (isLeapYear o.year) s.month o.month : Int))
    else some (daysBetween (isLeapYear s.year) o.month s.month)
  else none

/-- date.nr:338-360 `get_duration_between_years`. -/
def durationBetweenYears (s o : Date) : Int :=
  if s.year < o.year then
    let l := leapYearCount (o.year - 1) - leapYearCount s.year + if isLeapYear s.year then 1 else 0
    0 - l * 366 - ((o.year : Int) - s.year - l) * 365
  else if s.year > o.year then
    let l := leapYearCount (s.year - 1) - leapYearCount o.year + if isLeapYear o.year then 1 else 0
    0 + l * 366 + ((s.year : Int) - o.year - l) * 365
  else 0

/-- date.nr:180-200 `get_duration_in_days`, with `absolute` false; below 2^42 in absolute value, so that the `i64` do
not overflow. -/
def durationInDays (s o : Date) : Option Int :=
  match durationBetweenMonths s o with
  | none => none
  | some months =>
    let days : Int := (s.day : Int) - o.day
    let days :=
      if s.year < o.year then
        if isLeapYear o.year ∧ o.month > 2 ∧ s.month > 2 then days - 1 else days
      else if s.year > o.year then
        if isLeapYear s.year ∧ s.month > 2 ∧ o.month > 2 then days + 1 else days
      else days
    some (durationBetweenYears s o + months + days)

/-- date.nr:206-208 `lt`. -/
def Date.lt (s o : Date) : Option Bool := (durationInDays s o).map fun d => decide (d < 0)

/-- date.nr:454-459 `add_years` with 362-369 `check_for_leap_year_adjustment`.  The year is at most 9999 + 18 where it
is called, so that the `u32` does not overflow. -/
def Date.addYears (s : Date) (n : Nat) : Date :=
  let y := s.year + n
  if s.month = 2 ∧ s.day = 29 ∧ isLeapYear y = false then ⟨1, 3, y⟩ else ⟨s.day, s.month, y⟩

/-- crates/examples-zk/noir/src/main.nr:19-24 `check_18`. -/
def check18 (dob : Bytes) (proofDate : Date) : Option Bool :=
  match parseBirthDate dob with
  | none => none
  | some d => (d.addYears 18).lt proofDate

/-- crates/examples-zk/noir/src/main.nr:26-43 `check_hash` and `make_hash_input`; `sha` is SHA-256. -/
def checkHash (sha : Bytes → Bytes) (dob blinder committed : Bytes) : Bool :=
  decide (sha (dob.take 10 ++ blinder.take 16) = committed)

/-- crates/examples-zk/noir/src/main.nr:3-17 `main`: whether all assertions hold. -/
def circuit (sha : Bytes → Bytes) (proofDate : Date) (committed dob blinder : Bytes) : Bool :=
  match check18 dob proofDate with
  | none => false
  | some is18 => checkHash sha dob blinder committed && is18

/-! ## The verifier -/

/-- `chrono::NaiveDate`, a date of the proleptic Gregorian calendar. -/
structure NaiveDate where
  year : Int
  month : Nat
  day : Nat
  deriving DecidableEq, Repr

/-- `chrono`: leap years, also before year 0. -/
def leapInt (y : Int) : Bool := ((y % 4 == 0) && (y % 100 != 0)) || (y % 400 == 0)

/-- `chrono`'s `NaiveDate::from_ymd_opt`: years from -262143 to 262142. -/
def fromYmdOpt (y : Int) (m d : Nat) : Option NaiveDate :=
  if -262143 ≤ y ∧ y ≤ 262142 ∧ 1 ≤ m ∧ m ≤ 12 ∧ 1 ≤ d ∧ d ≤ daysInMonth (leapInt y) m then some ⟨y, m, d⟩ else none

/-- `chrono`'s order of dates.  `(a - b).num_days() < 0` is `a.before b`: the number of days between two dates is
negative just if the first is earlier. -/
def NaiveDate.before (a b : NaiveDate) : Bool :=
  decide (a.year < b.year ∨ a.year = b.year ∧ (a.month < b.month ∨ a.month = b.month ∧ a.day < b.day))

/-- What the example takes from libraries: validity of UTF-8 (`String::from_utf8`), the verification key of the
program (`get_ultra_honk_verification_key`, `none`: an error) and `verify_ultra_honk` (`none`: an error). -/
structure Lib where
  utf8 : Bytes → Bool
  vk : Option Bytes
  verify : Bytes → Bytes → Option Bool

/-- crates/server-fixture/certs/src/lib.rs:8 `SERVER_DOMAIN`, the bytes of "test-server.io". -/
def domain : Bytes := [116, 101, 115, 116, 45, 115, 101, 114, 118, 101, 114, 46, 105, 111]

/-- Whether `x` occurs in `l` without gaps: `str::contains`. -/
def contains (l x : Bytes) : Bool := l.tails.any fun t => x.isPrefixOf t

/-- The errors of the verifier of the example, in the order of its checks. -/
inductive AgeError where
  | rejected | session | utf8 | host | noCommitment | serverName | io | noData | bundle | vk | vkMismatch | short
  | numPub | date | future | hash | verification | invalid
  deriving DecidableEq, Repr

/-- The value of little-endian bytes. -/
def leNat (b : Bytes) : Nat := beNat b.reverse

/-- `bincode` 1.3: a `Vec<u8>` is its length in eight little-endian bytes and the bytes. -/
def readVec (b : Bytes) : Option (Bytes × Bytes) :=
  if b.length < 8 then none
  else
    let n := leNat (b.take 8)
    if (b.drop 8).length < n then none else some ((b.drop 8).take n, (b.drop 8).drop n)

/-- `bincode::deserialize` of crates/examples-zk/types.rs:4-8 `ZKProofBundle`: `vk` and `proof`.  Bytes after them are
ignored. -/
def readBundle (b : Bytes) : Option (Bytes × Bytes) :=
  match readVec b with
  | none => none
  | some (vk, rest) =>
    match readVec rest with
    | none => none
    | some (proof, _) => some (vk, proof)

/-- `i32::from_be_bytes`. -/
def i32OfBe (b : Bytes) : Int := if beNat b < 2 ^ 31 then (beNat b : Int) else (beNat b : Int) - 2 ^ 32

/-- crates/examples-zk/types.rs:11-21 `received_commitments`. -/
def receivedCommitments (cs : List PlaintextHash) : List PlaintextHash := cs.filter fun c => c.direction = .received

/-- crates/examples-zk/verifier.rs:209-214: the last byte of each of the chunks 3 to 34 of 32 bytes.  Simplified: the
list has 35 full chunks here, so that the bytes are given by their positions. -/
def hashInProof (publicInputs : Bytes) : Bytes := (List.range 32).map fun i => publicInputs.getD (32 * (i + 3) + 31) 0

/-- crates/examples-zk/verifier.rs:169-238: the checks of the proof. -/
def checkProof (L : Lib) (committed proof vk : Bytes) (today : NaiveDate) : Outcome AgeError Unit :=
  if proof.length < 4 + 35 * 32 then .err .short
  else if beNat (proof.take 4) ≠ 35 then .err .numPub
  else
    let publicInputs := (proof.drop 4).take (35 * 32)
    let day := beNat ((publicInputs.drop 28).take 4)
    let month := beNat ((publicInputs.drop 60).take 4)
    let year := i32OfBe ((publicInputs.drop 92).take 4)
    match fromYmdOpt year month day with
    | none => .err .date
    | some proofDate =>
      if today.before proofDate then .err .future
      else if hashInProof publicInputs ≠ committed then .err .hash
      else
        match L.verify proof vk with
        | none => .err .verification
        | some valid => if valid then .ok () else .err .invalid

/-- crates/examples-zk/verifier.rs:106-240: what the verifier does with the output of the session.  `buf` is what the
prover sends after the session (`none`: reading fails), `today` the date of the clock. -/
def checkOutput (L : Lib) (out : VerifierOutput) (buf : Option Bytes) (today : NaiveDate) :
    Outcome AgeError PartialTranscript :=
  match out.serverName, out.transcript with
  | some name, some t =>
    if L.utf8 t.sent = false then .err .utf8
    else if contains t.sent domain = false then .err .host
    else
      match receivedCommitments out.commitments with
      | [] => .err .noCommitment
      | c :: _ =>
        if c.direction ≠ .received then .panic
        else if c.hash.alg ≠ HashAlgId.sha256 then .panic
        else if name ≠ domain then .err .serverName
        else
          match buf with
          | none => .err .io
          | some [] => .err .noData
          | some buf =>
            match readBundle buf with
            | none => .err .bundle
            | some (vk, proof) =>
              match L.vk with
              | none => .err .vk
              | some k =>
                if k ≠ vk then .err .vkMismatch
                else
                  match checkProof L c.hash.value proof vk today with
                  | .ok () => .ok t
                  | .err e => .err e
                  | .panic => .panic
  | _, _ => .panic

/-- crates/examples-zk/verifier.rs:74-240: the verifier, from the request of the prover on.  A request that does not
ask for the identity of the server or that reveals nothing is rejected. -/
def verifier (env : Protocol.Env) (vm : ZkVm) (L : Lib) (msg : Protocol.ProveMsg) (buf : Option Bytes)
    (today : NaiveDate) : Outcome AgeError PartialTranscript :=
  if msg.request.serverIdentity = false ∨ msg.request.reveal.isNone then .err .rejected
  else
    match ((Protocol.VState.committed vm).run env [.verify (some msg), .accept true]).2 with
    | [_, .output out] => checkOutput L out buf today
    | [_, .panicked] => .panic
    | _ => .err .session

/-! ## The prover -/

/-- A field element of the proof with a small value, 32 big-endian bytes. -/
def field (n : Nat) : Bytes := beBytes 32 n

/-- The public inputs in the order of the program's arguments and of the fields of `Date`, as `noir-rs` puts them before
the proof: crates/examples-zk/verifier.rs:171-174, crates/examples-zk/prover.rs:347-351. -/
def publicPart (d : Date) (committed : Bytes) : Bytes :=
  beBytes 4 35 ++ (field d.day ++ (field d.month ++ (field d.year ++ committed.flatMap fun b => field b.toNat)))

/-- `bincode::serialize` of a `Vec<u8>`. -/
def writeVec (b : Bytes) : Bytes := (beBytes 8 b.length).reverse ++ b

/-- crates/examples-zk/prover.rs:193 `bincode::serialize` of the bundle. -/
def writeBundle (vk proof : Bytes) : Bytes := writeVec vk ++ writeVec proof

end Tlsn.Age
