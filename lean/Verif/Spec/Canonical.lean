import Verif.Spec.Abi
/-!
# Zero padding

`padded t off a`: in the data `a`, the bytes around the value of the static type `t` at `off` are there and as the encoding
specification wants them: 12 zero bytes before an address, zero bytes behind a `bytesN`, and 0 or 1 as the last byte of a bool.
-/
namespace Ethabi.Spec

mutual
def padded : ParamType → Nat → Bytes → Prop
  | .address, off, a => (a.drop off).take 12 = List.replicate 12 0
  | .bool, off, a => a[off + 31]? = some 0 ∨ a[off + 31]? = some 1
  | .fixedBytes n, off, a => (a.drop (off + n)).take (32 - n) = List.replicate (32 - n) 0
  | .fixedArray t k, off, a => ∀ i, i < k → padded t (off + i * staticSize t) a
  | .tuple ts, off, a => paddedAll ts off a
  | _, _, _ => True
def paddedAll : List ParamType → Nat → Bytes → Prop
  | [], _, _ => True
  | t :: ts, off, a => padded t off a ∧ paddedAll ts (off + staticSize t) a
end

end Ethabi.Spec
