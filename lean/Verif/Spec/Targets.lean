import Verif.Spec.Reading
/-!
# Positions beyond the address space

`wraps bits t data off`: reading a value of type `t` at `off`, one meets a position or an extent that does not fit in `bits` bits:
the 32 bytes behind an offset, or the bytes announced by a length.
-/
namespace Ethabi.Spec

/-- a payload whose length word, or whose end, is at `2^bits` or behind -/
def payloadWraps (bits : Nat) (data : Bytes) (off : Nat) : Prop :=
  ∃ o, smallAt data off o ∧ (2 ^ bits ≤ o + 32 ∨ ∃ n, smallAt data o n ∧ 2 ^ bits ≤ o + 32 + n)

mutual
def wraps (bits : Nat) : ParamType → Bytes → Nat → Prop
  | .bytes, data, off => payloadWraps bits data off
  | .string, data, off => payloadWraps bits data off
  | .array t, data, off => ∃ o, smallAt data off o ∧ (2 ^ bits ≤ o + 32 ∨ ∃ k, smallAt data o k ∧
      spacedOverrun (reads t (data.drop (o + 32))) (wraps bits t (data.drop (o + 32))) (headWidth t) 0 k)
  | .fixedArray t k, data, off =>
      if dynamic t then ∃ o, smallAt data off o ∧ o ≤ data.length ∧
        spacedOverrun (reads t (data.drop o)) (wraps bits t (data.drop o)) (headWidth t) 0 k
      else spacedOverrun (reads t data) (wraps bits t data) (headWidth t) off k
  | .tuple ts, data, off =>
      if dynamicAny ts then ∃ o, smallAt data off o ∧ o ≤ data.length ∧ wrapsAny bits ts (data.drop o) 0
      else wrapsAny bits ts data off
  | _, _, _ => False
/-- some value meets such a position, those in front of it being there -/
def wrapsAny (bits : Nat) : List ParamType → Bytes → Nat → Prop
  | [], _, _ => False
  | t :: ts, data, off => wraps bits t data off ∨ ∃ tok, reads t data off tok ∧ wrapsAny bits ts data (off + headWidth t)
end

mutual
/-- `bytesN` widths below 2^30 -/
def narrow32 : ParamType → Bool
  | .fixedBytes n => decide (n < 2 ^ 30)
  | .fixedArray t _ => narrow32 t
  | .array t => narrow32 t
  | .tuple ts => narrow32All ts
  | _ => true
def narrow32All : List ParamType → Bool
  | [] => true
  | t :: ts => narrow32 t && narrow32All ts
end

end Ethabi.Spec
