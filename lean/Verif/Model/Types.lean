import Verif.Model.Basic
/-!
# Parameter types and tokens
-/
namespace Ethabi

/-- ethabi/src/param_type/param_type.rs:16-37 `enum ParamType` (`usize` fields as `Nat`). -/
inductive ParamType where
  | address
  | bytes
  | int (size : Nat)
  | uint (size : Nat)
  | bool
  | string
  | array (t : ParamType)
  | fixedBytes (len : Nat)
  | fixedArray (t : ParamType) (len : Nat)
  | tuple (ts : List ParamType)
deriving Repr

/-- ethabi/src/token/token.rs:15-64 `enum Token`. -/
inductive Token where
  | address (a : Address)
  | fixedBytes (b : Bytes)
  | bytes (b : Bytes)
  | int (v : U256)
  | uint (v : U256)
  | bool (b : Bool)
  | string (s : Str)
  | fixedArray (ts : List Token)
  | array (ts : List Token)
  | tuple (ts : List Token)

mutual
/-- derived `PartialEq` of `ParamType` (param_type.rs:15) -/
def ParamType.decEq : (a b : ParamType) → Decidable (a = b)
  | .address, b => by
      cases b <;> first | exact isTrue rfl | exact isFalse (by intro h; cases h)
  | .bytes, b => by
      cases b <;> first | exact isTrue rfl | exact isFalse (by intro h; cases h)
  | .bool, b => by
      cases b <;> first | exact isTrue rfl | exact isFalse (by intro h; cases h)
  | .string, b => by
      cases b <;> first | exact isTrue rfl | exact isFalse (by intro h; cases h)
  | .int n, .int m => if h : n = m then isTrue (by rw [h]) else isFalse (by intro h'; cases h'; exact h rfl)
  | .uint n, .uint m => if h : n = m then isTrue (by rw [h]) else isFalse (by intro h'; cases h'; exact h rfl)
  | .fixedBytes n, .fixedBytes m =>
      if h : n = m then isTrue (by rw [h]) else isFalse (by intro h'; cases h'; exact h rfl)
  | .array s, .array t => match ParamType.decEq s t with
      | isTrue h => isTrue (by rw [h])
      | isFalse h => isFalse (by intro h'; cases h'; exact h rfl)
  | .fixedArray s n, .fixedArray t m => match ParamType.decEq s t with
      | isTrue h =>
          if h2 : n = m then isTrue (by rw [h, h2]) else isFalse (by intro h'; cases h'; exact h2 rfl)
      | isFalse h => isFalse (by intro h'; cases h'; exact h rfl)
  | .tuple ss, .tuple ts => match ParamType.decEqList ss ts with
      | isTrue h => isTrue (by rw [h])
      | isFalse h => isFalse (by intro h'; cases h'; exact h rfl)
  | .int _, .address | .int _, .bytes | .int _, .uint _ | .int _, .bool | .int _, .string
  | .int _, .array _ | .int _, .fixedBytes _ | .int _, .fixedArray _ _ | .int _, .tuple _
  | .uint _, .address | .uint _, .bytes | .uint _, .int _ | .uint _, .bool | .uint _, .string
  | .uint _, .array _ | .uint _, .fixedBytes _ | .uint _, .fixedArray _ _ | .uint _, .tuple _
  | .fixedBytes _, .address | .fixedBytes _, .bytes | .fixedBytes _, .int _ | .fixedBytes _, .bool
  | .fixedBytes _, .string | .fixedBytes _, .array _ | .fixedBytes _, .uint _
  | .fixedBytes _, .fixedArray _ _ | .fixedBytes _, .tuple _
  | .array _, .address | .array _, .bytes | .array _, .int _ | .array _, .bool | .array _, .string
  | .array _, .uint _ | .array _, .fixedBytes _ | .array _, .fixedArray _ _ | .array _, .tuple _
  | .fixedArray _ _, .address | .fixedArray _ _, .bytes | .fixedArray _ _, .int _
  | .fixedArray _ _, .bool | .fixedArray _ _, .string | .fixedArray _ _, .uint _
  | .fixedArray _ _, .fixedBytes _ | .fixedArray _ _, .array _ | .fixedArray _ _, .tuple _
  | .tuple _, .address | .tuple _, .bytes | .tuple _, .int _ | .tuple _, .bool | .tuple _, .string
  | .tuple _, .uint _ | .tuple _, .fixedBytes _ | .tuple _, .fixedArray _ _ | .tuple _, .array _ =>
      isFalse (by intro h; cases h)
/-- list part of `ParamType.decEq` -/
def ParamType.decEqList : (a b : List ParamType) → Decidable (a = b)
  | [], [] => isTrue rfl
  | [], _ :: _ => isFalse (by intro h; cases h)
  | _ :: _, [] => isFalse (by intro h; cases h)
  | a :: as, b :: bs => match ParamType.decEq a b with
      | isTrue h => match ParamType.decEqList as bs with
          | isTrue h2 => isTrue (by rw [h, h2])
          | isFalse h2 => isFalse (by intro h'; cases h'; exact h2 rfl)
      | isFalse h => isFalse (by intro h'; cases h'; exact h rfl)
end

instance : DecidableEq ParamType := ParamType.decEq

mutual
/-- derived `PartialEq` of `Token` (token.rs:14), as a boolean -/
def Token.beq : Token → Token → Bool
  | .address a, .address b => a == b
  | .fixedBytes a, .fixedBytes b => a == b
  | .bytes a, .bytes b => a == b
  | .int a, .int b => a == b
  | .uint a, .uint b => a == b
  | .bool a, .bool b => a == b
  | .string a, .string b => a == b
  | .fixedArray a, .fixedArray b => Token.beqList a b
  | .array a, .array b => Token.beqList a b
  | .tuple a, .tuple b => Token.beqList a b
  | _, _ => false
/-- list part of `Token.beq` -/
def Token.beqList : List Token → List Token → Bool
  | [], [] => true
  | a :: as, b :: bs => Token.beq a b && Token.beqList as bs
  | _, _ => false
end

mutual
theorem Token.eq_of_beq : ∀ (a b : Token), Token.beq a b = true → a = b
  | .address a, b => by
      cases b <;> simp [Token.beq]
      exact Subtype.ext
  | .fixedBytes a, b => by cases b <;> simp [Token.beq]
  | .bytes a, b => by cases b <;> simp [Token.beq]
  | .int a, b => by cases b <;> simp [Token.beq]
  | .uint a, b => by cases b <;> simp [Token.beq]
  | .bool a, b => by cases b <;> simp [Token.beq]
  | .string a, b => by cases b <;> simp [Token.beq]
  | .fixedArray a, b => by
      cases b <;> simp [Token.beq]
      exact Token.eq_of_beqList _ _
  | .array a, b => by
      cases b <;> simp [Token.beq]
      exact Token.eq_of_beqList _ _
  | .tuple a, b => by
      cases b <;> simp [Token.beq]
      exact Token.eq_of_beqList _ _
theorem Token.eq_of_beqList : ∀ (a b : List Token), Token.beqList a b = true → a = b
  | [], [] => fun _ => rfl
  | [], _ :: _ => by simp [Token.beqList]
  | _ :: _, [] => by simp [Token.beqList]
  | a :: as, b :: bs => by
      simp only [Token.beqList, Bool.and_eq_true]
      intro h
      rw [Token.eq_of_beq a b h.1, Token.eq_of_beqList as bs h.2]
end

mutual
theorem Token.beq_refl : ∀ (a : Token), Token.beq a a = true
  | .address a => by simp [Token.beq]
  | .fixedBytes a => by simp [Token.beq]
  | .bytes a => by simp [Token.beq]
  | .int a => by simp [Token.beq]
  | .uint a => by simp [Token.beq]
  | .bool a => by simp [Token.beq]
  | .string a => by simp [Token.beq]
  | .fixedArray a => by simp [Token.beq, Token.beqList_refl a]
  | .array a => by simp [Token.beq, Token.beqList_refl a]
  | .tuple a => by simp [Token.beq, Token.beqList_refl a]
theorem Token.beqList_refl : ∀ (a : List Token), Token.beqList a a = true
  | [] => by simp [Token.beqList]
  | a :: as => by simp [Token.beqList, Token.beq_refl a, Token.beqList_refl as]
end

instance : DecidableEq Token := fun a b =>
  if h : Token.beq a b = true then isTrue (Token.eq_of_beq a b h)
  else isFalse (by intro e; subst e; exact h (Token.beq_refl a))

mutual
/-- every size field is a `usize` (param_type.rs:22,24,32,34); holds of every Rust value -/
def ParamType.usizeOk : ParamType → Bool
  | .int n => decide (n < 2 ^ 64)
  | .uint n => decide (n < 2 ^ 64)
  | .fixedBytes n => decide (n < 2 ^ 64)
  | .fixedArray t n => decide (n < 2 ^ 64) && t.usizeOk
  | .array t => t.usizeOk
  | .tuple ts => ParamType.usizeOkAll ts
  | _ => true
/-- list part of `usizeOk` -/
def ParamType.usizeOkAll : List ParamType → Bool
  | [] => true
  | t :: ts => t.usizeOk && ParamType.usizeOkAll ts
end

/-- param_type.rs:48-54 `ParamType::is_empty_bytes_valid_encoding`. -/
def ParamType.isEmptyBytesValidEncoding : ParamType → Bool
  | .fixedBytes len => len == 0
  | .fixedArray _ len => len == 0
  | _ => false

mutual
/-- param_type.rs:58-65 `ParamType::is_dynamic`. -/
def ParamType.isDynamic : ParamType → Bool
  | .bytes => true
  | .string => true
  | .array _ => true
  | .fixedArray t _ => t.isDynamic
  | .tuple ts => ParamType.anyDynamic ts
  | _ => false
/-- `params.iter().any(|param| param.is_dynamic())`, param_type.rs:62. -/
def ParamType.anyDynamic : List ParamType → Bool
  | [] => false
  | t :: ts => t.isDynamic || ParamType.anyDynamic ts
end

mutual
/-- token.rs:216-223 `Token::is_dynamic`. -/
def Token.isDynamic : Token → Bool
  | .bytes _ => true
  | .string _ => true
  | .array _ => true
  | .fixedArray ts => Token.anyDynamic ts
  | .tuple ts => Token.anyDynamic ts
  | _ => false
/-- `tokens.iter().any(|token| token.is_dynamic())`, token.rs:219-220. -/
def Token.anyDynamic : List Token → Bool
  | [] => false
  | t :: ts => t.isDynamic || Token.anyDynamic ts
end

mutual
/-- token.rs:93-134 `Token::type_check`.  The tuple case indexes `param_type[i]`
(token.rs:128), which panics when there are more tokens than types. -/
def Token.typeCheck : Token → ParamType → Res Bool
  | .address _, p => .ok (p == .address)
  | .bytes _, p => .ok (p == .bytes)
  | .int _, p => .ok (match p with | .int _ => true | _ => false)
  | .uint _, p => .ok (match p with | .uint _ => true | _ => false)
  | .bool _, p => .ok (p == .bool)
  | .string _, p => .ok (p == .string)
  | .fixedBytes b, p => .ok (match p with | .fixedBytes size => decide (size ≥ b.length) | _ => false)
  | .array ts, p => match p with
      | .array q => Token.allCheck ts q
      | _ => .ok false
  | .fixedArray ts, p => match p with
      | .fixedArray q size => if size == ts.length then Token.allCheck ts q else .ok false
      | _ => .ok false
  | .tuple ts, p => match p with
      | .tuple qs => Token.tupleCheck ts qs
      | _ => .ok false
/-- `tokens.iter().all(|t| t.type_check(param_type))`, token.rs:114,121 (short-circuiting). -/
def Token.allCheck : List Token → ParamType → Res Bool
  | [], _ => .ok true
  | t :: ts, p => do
      let b ← Token.typeCheck t p
      if b then Token.allCheck ts p else .ok false
/-- `tokens.iter().enumerate().all(|(i, t)| t.type_check(&param_type[i]))`, token.rs:128. -/
def Token.tupleCheck : List Token → List ParamType → Res Bool
  | [], _ => .ok true
  | _ :: _, [] => .panic
  | t :: ts, p :: ps => do
      let b ← Token.typeCheck t p
      if b then Token.tupleCheck ts ps else .ok false
end

/-- `param_types.iter().zip(tokens).all(..)`, token.rs:211. -/
def Token.zipCheck : List ParamType → List Token → Res Bool
  | p :: ps, t :: ts => do
      let b ← Token.typeCheck t p
      if b then Token.zipCheck ps ts else .ok false
  | _, _ => .ok true

/-- token.rs:209-213 `Token::types_check`. -/
def Token.typesCheck (tokens : List Token) (types : List ParamType) : Res Bool :=
  if types.length == tokens.length then Token.zipCheck types tokens else .ok false

end Ethabi
