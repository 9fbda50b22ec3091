import Verif.Spec.Abi
/-!
# The significant bytes of data for static types

`alike t off a b`: the data `a` and `b` carry the same value of the static type `t` at `off`.  Of an address the first 12 of
the 32 bytes do not matter, of a `bytesN` those behind the first N; integers matter as a whole.  Of a bool it only matters
whether the last byte is 1.
-/
namespace Ethabi.Spec

/-- the `n` bytes at `off` are there and the same -/
def sameBytes (off n : Nat) (a b : Bytes) : Prop := off + n ≤ b.length ∧ (a.drop off).take n = (b.drop off).take n

mutual
def alike : ParamType → Nat → Bytes → Bytes → Prop
  | .address, off, a, b => sameBytes (off + 12) 20 a b
  | .bool, off, a, b => sameBytes off 31 a b ∧ off + 32 ≤ b.length ∧ (a[off + 31]? = some 1 ↔ b[off + 31]? = some 1)
  | .fixedBytes n, off, a, b => sameBytes off n a b
  | .fixedArray t k, off, a, b => ∀ i, i < k → alike t (off + i * staticSize t) a b
  | .tuple ts, off, a, b => alikeAll ts off a b
  | _, off, a, b => sameBytes off 32 a b
def alikeAll : List ParamType → Nat → Bytes → Bytes → Prop
  | [], _, _, _ => True
  | t :: ts, off, a, b => alike t off a b ∧ alikeAll ts (off + staticSize t) a b
end

mutual
/-- types without insignificant bytes: integers, `bytes32`, fixed arrays and tuples of these -/
def full : ParamType → Bool
  | .int _ => true
  | .uint _ => true
  | .fixedBytes n => n == 32
  | .fixedArray t _ => full t
  | .tuple ts => fullAll ts
  | _ => false
def fullAll : List ParamType → Bool
  | [] => true
  | t :: ts => full t && fullAll ts
end

end Ethabi.Spec
