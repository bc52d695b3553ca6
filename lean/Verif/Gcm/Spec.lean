import Verif.Gcm.Pair

/-! # What AES-GCM over the machine is to compute -/

namespace Tlsn.Gcm

/-- AES in counter mode under a key and an implicit nonce `IV`, as the block function of the record layer: the block of
a nonce and a counter is `AES(K, IV ‖ nonce ‖ counter)`, the counter in four bytes, the most significant first.
The hash is left out. -/
def ctrMode (aes : AesFn) (K IV : Bytes) : AeadFn := ⟨fun nonce ctr => aes K (IV ++ nonce ++ beBytes 4 ctr), fun _ => Vector.replicate 16 0⟩

/-- A cipher with a key and an implicit nonce, as it is set up by its owner. -/
def fresh (key iv : Ref) : Aes128 := (({} : Aes128).setKey key).setIv iv

/-- The meaning of a result in a machine: with the key of `F`, what was applied is the input xor the keystream of the
nonce, what was taken is that keystream, and the blocks of tags are the first blocks of their nonces. -/
def OutMeans (A : AesCircuits) (f : Nat → Option Byte) (vm : Vm) (F : AeadFn) : GcmOp → GcmOut → Prop
  | .apply nonce len, .applied i o => i.len = len ∧ o.len = len ∧
      ∀ P, vm.value A f i = some P → vm.value A f o = some (xorBytes P (F.keystream nonce len))
  | .take nonce len, .taken o => o.len = len ∧ vm.value A f o = some (F.keystream nonce len)
  | .tags ns, .tags js => js.map (fun j => vm.value A f j.1.output) = ns.map fun n => some (F.block n 1).toList
  | _, .none => True
  | _, _ => False

/-- The shares that both parties get of the blocks of tags: they add up to the blocks. -/
def SharesAdd (A : AesCircuits) (f : Nat → Option Byte) (vl vf : Vm) (F : AeadFn) : List Bytes → List (CtrBlock × Share) →
    List (CtrBlock × Share) → Prop
  | [], [], [] => True
  | n :: ns, l :: ls, r :: rs =>
    (∃ d, vl.value A f l.2.masked = some d ∧ vf.value A f r.2.masked = some d ∧
      xorBytes (l.2.resolve .leader d) (r.2.resolve .follower d) = (F.block n 1).toList) ∧ SharesAdd A f vl vf F ns ls rs
  | _, _, _ => False

/-- The shares of all results of `tags`. -/
def AllSharesAdd (A : AesCircuits) (f : Nat → Option Byte) (vl vf : Vm) (F : AeadFn) : List GcmOp → List GcmOut → List GcmOut → Prop
  | [], [], [] => True
  | op :: ops, l :: ls, r :: rs =>
    (∀ ns jl jf, op = .tags ns → l = .tags jl → r = .tags jf → SharesAdd A f vl vf F ns jl jf) ∧ AllSharesAdd A f vl vf F ops ls rs
  | _, _, _ => False

end Tlsn.Gcm
