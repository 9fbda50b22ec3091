import Verif.Model.Hex
import Verif.Spec.Filter
import Verif.Proofs.Decode
/-! Hexadecimal text. -/
namespace Ethabi
open Spec

theorem hexVal_hexDigit : ∀ n : Fin 16, hexVal (hexDigit n.1) = some n.1 := by decide +kernel

theorem idxOf_hexDigit : ∀ n : Fin 16, hexDigits.idxOf? (hexDigit n.1) = some n.1 := by decide +kernel

theorem byte_split (b : UInt8) : UInt8.ofNat (b.toNat / 16 * 16 + b.toNat % 16) = b := by
  have : b.toNat / 16 * 16 + b.toNat % 16 = b.toNat := by omega
  rw [this]; exact UInt8.ofNat_toNat

theorem byte_hi (b : UInt8) : b.toNat / 16 < 16 := by have := b.toNat_lt; omega
theorem byte_lo (b : UInt8) : b.toNat % 16 < 16 := by omega

/-- `hex::decode(hex::encode(b)) = Ok(b)` -/
theorem hexDecode_hexEncode (b : Bytes) : hexDecode (hexEncode b) = .ok b := by
  induction b with
  | nil => rfl
  | cons x b ih =>
    show hexDecode (hexDigit (x.toNat / 16) :: hexDigit (x.toNat % 16) :: hexEncode b) = _
    rw [hexDecode, hexVal_hexDigit ⟨_, byte_hi x⟩, hexVal_hexDigit ⟨_, byte_lo x⟩]
    simp only [ih, Res.ok_bind, byte_split]

theorem readHex_hexEncode (b : Bytes) : readHex (hexEncode b) = some b := by
  induction b with
  | nil => rfl
  | cons x b ih =>
    show readHex (hexDigit (x.toNat / 16) :: hexDigit (x.toNat % 16) :: hexEncode b) = _
    rw [readHex, idxOf_hexDigit ⟨_, byte_hi x⟩, idxOf_hexDigit ⟨_, byte_lo x⟩, ih]
    simp only [Nat.mul_comm 16, byte_split]

theorem length_hexEncode (b : Bytes) : (hexEncode b).length = 2 * b.length := by
  induction b with
  | nil => rfl
  | cons x b ih =>
    show (hexDigit (x.toNat / 16) :: hexDigit (x.toNat % 16) :: hexEncode b).length = _
    simp only [List.length_cons, ih]; omega

theorem hexDigit_mem : ∀ n : Fin 16, hexDigit n.1 ∈ hexDigits := by decide +kernel

theorem hexEncode_digits (b : Bytes) : ∀ c ∈ hexEncode b, c ∈ hexDigits := by
  induction b with
  | nil => intro c hc; cases hc
  | cons x b ih =>
    intro c hc
    have hc : c ∈ hexDigit (x.toNat / 16) :: hexDigit (x.toNat % 16) :: hexEncode b := hc
    simp only [List.mem_cons] at hc
    rcases hc with rfl | rfl | hc
    · exact hexDigit_mem ⟨_, byte_hi x⟩
    · exact hexDigit_mem ⟨_, byte_lo x⟩
    · exact ih c hc

end Ethabi
