import Verif.Base.Basic

/-! # Names of servers as keys

crates/tls-core/src/dns.rs.  `ServerName::encode` is meant for keys of caches: "a prefix-free, unique encoding". -/

namespace Tlsn.Client.Name

/-- crates/tls-core/src/dns.rs:28 `ServerName`: the `ServerName` of the dependency `rustls_pki_types`, whose IP addresses have
four and sixteen bytes. -/
inductive Name where
  | dns (text : Bytes)
  | ipv4 (addr : Vector Byte 4)
  | ipv6 (addr : Vector Byte 16)
  deriving DecidableEq, Repr

/-- crates/tls-core/src/dns.rs:48-53: the bytes of a name. -/
def Name.bytes : Name → Bytes
  | .dns t => t
  | .ipv4 a => a.toList
  | .ipv6 a => a.toList

/-- crates/tls-core/src/dns.rs:43-61 `encode`; the code of the type is always that of a DNS name. -/
def Name.encode (n : Name) : Bytes := 1 :: UInt8.ofNat n.bytes.length :: n.bytes

/-- crates/tls-core/src/dns.rs:34-39 `for_sni` -/
def Name.forSni : Name → Option Bytes
  | .dns t => some t
  | _ => none

/-- crates/tls-core/src/dns.rs:71-79 `TryFrom<&str>`, the only way to make a name from outside of the crate.  `valid` is
`DnsName::try_from` of the dependency. -/
def Name.ofText (valid : Bytes → Bool) (t : Bytes) : Option Name := if valid t then some (.dns t) else none

/-- The assumption on the dependency: a DNS name has at most 253 bytes. -/
def ShortNames (valid : Bytes → Bool) : Prop := ∀ t, valid t = true → t.length ≤ 253

theorem ofText_eq {valid : Bytes → Bool} {t : Bytes} {n : Name} (h : Name.ofText valid t = some n) :
    n = .dns t ∧ valid t = true := by
  unfold Name.ofText at h
  split at h
  · rename_i hv
    exact ⟨(Option.some.inj h).symm, hv⟩
  · cases h

/-- **C139**: the encodings of two names followed by anything are equal only if the names and what follows are. -/
theorem C139_prefix_free (valid : Bytes → Bool) (hs : ShortNames valid) (s t : Bytes) (m n : Name)
    (hm : Name.ofText valid s = some m) (hn : Name.ofText valid t = some n) (x y : Bytes)
    (h : m.encode ++ x = n.encode ++ y) : s = t ∧ m = n ∧ x = y := by
  obtain ⟨rfl, hvs⟩ := ofText_eq hm
  obtain ⟨rfl, hvt⟩ := ofText_eq hn
  simp only [Name.encode, Name.bytes, List.cons_append, List.cons.injEq, true_and] at h
  obtain ⟨hl, h⟩ := h
  have hlen : s.length = t.length := by
    have hs' := hs s hvs
    have ht' := hs t hvt
    have := congrArg UInt8.toNat hl
    simp only [UInt8.toNat_ofNat'] at this
    omega
  obtain ⟨rfl, rfl⟩ := List.append_inj h hlen
  exact ⟨rfl, rfl, rfl⟩

/-- **C139**: the name that a program makes from a text is the one for the SNI extension. -/
theorem C139_sni (valid : Bytes → Bool) (t : Bytes) (n : Name) (h : Name.ofText valid t = some n) :
    n.forSni = some t := by
  obtain ⟨rfl, _⟩ := ofText_eq h
  rfl

/-- The comment on `encode` would be false of IP addresses, if they could be made: they are not told from names. -/
theorem C139_addresses_not_told : ∃ (a : Vector Byte 4) (t : Bytes), (Name.ipv4 a).encode = (Name.dns t).encode :=
  ⟨#v[97, 98, 46, 99], [97, 98, 46, 99], by decide⟩

/-- Example for `C139_prefix_free` and `C139_sni`: "a.b" and "a.bc" under a validation that only looks at lengths. -/
example :
    let valid := fun t : Bytes => decide (0 < t.length ∧ t.length ≤ 253)
    ShortNames valid ∧ Name.ofText valid [97, 46, 98] = some (.dns [97, 46, 98]) ∧
      (Name.dns [97, 46, 98]).encode = [1, 3, 97, 46, 98] ∧ (Name.dns [97, 46, 98, 99]).encode = [1, 4, 97, 46, 98, 99] ∧
      Name.ofText valid [] = none := by
  refine ⟨fun t h => ?_, by decide, by decide, by decide, by decide⟩
  exact (of_decide_eq_true h).2

end Tlsn.Client.Name
