/-!
# Basic vocabulary of the model

Rust results with an explicit panic outcome, build profiles, machine integers,
bytes, words and strings.
-/
namespace Ethabi

/-- Cargo build profile: `debug` checks integer overflow (panic), `release` wraps.
(Rust language semantics of `+`, `*`, `-` on `u32`/`usize`; no repo line.) -/
inductive Profile where
  | debug
  | release
deriving DecidableEq, Repr

/-- ethabi/src/errors.rs:18-41 `enum Error`.  Payloads of foreign error types
(serde, ParseIntError, FromUtf8Error, FromHexError, anyhow) are not modelled; only the variant is. -/
inductive Err where
  | invalidName (s : List Char)
  | invalidData
  | serdeJson
  | parseInt
  | utf8
  | hex
  | other
deriving DecidableEq, Repr

/-- A Rust computation: `Ok`, `Err` or a panic. -/
inductive Res (α : Type) where
  | ok (a : α)
  | err (e : Err)
  | panic
deriving DecidableEq, Repr

namespace Res

/-- The `?` operator; panics propagate. -/
def bind {α β : Type} : Res α → (α → Res β) → Res β
  | .ok a, f => f a
  | .err e, _ => .err e
  | .panic, _ => .panic

instance : Monad Res where
  pure := .ok
  bind := Res.bind

@[simp] theorem ok_bind {α β : Type} (a : α) (f : α → Res β) : (Res.ok a >>= f) = f a := rfl
@[simp] theorem err_bind {α β : Type} (e : Err) (f : α → Res β) : (Res.err e >>= f) = .err e := rfl
@[simp] theorem panic_bind {α β : Type} (f : α → Res β) : ((Res.panic : Res α) >>= f) = .panic := rfl
@[simp] theorem pure_eq {α : Type} (a : α) : (pure a : Res α) = .ok a := rfl

theorem bind_eq_ok {α β : Type} {x : Res α} {f : α → Res β} {b : β} :
    (x >>= f) = .ok b ↔ ∃ a, x = .ok a ∧ f a = .ok b := by
  cases x <;> simp

theorem bind_assoc {α β γ : Type} (x : Res α) (f : α → Res β) (g : β → Res γ) :
    ((x >>= f) >>= g) = (x >>= fun a => f a >>= g) := by
  cases x <;> simp

@[simp] theorem map_ok {α β : Type} (f : α → β) (a : α) : (f <$> Res.ok a) = .ok (f a) := rfl
@[simp] theorem map_err {α β : Type} (f : α → β) (e : Err) : (f <$> (Res.err e : Res α)) = .err e := rfl
@[simp] theorem map_panic {α β : Type} (f : α → β) : (f <$> (Res.panic : Res α)) = .panic := rfl

/-- `Option::ok_or`. -/
def ofOption {α : Type} (e : Err) : Option α → Res α
  | some a => .ok a
  | none => .err e

/-- The call returned instead of panicking. -/
def NoPanic {α : Type} (x : Res α) : Prop := x ≠ .panic

end Res

/-- Bytes, Rust `Vec<u8>` / `&[u8]`. -/
abbrev Bytes := List UInt8

/-- Rust `String` / `&str`: a sequence of Unicode scalar values (Lean `Char`). -/
abbrev Str := List Char

/-- ethabi/src/lib.rs:57 `type Word = [u8; 32]`. -/
abbrev Word := { l : List UInt8 // l.length = 32 }

/-- ethabi/src/lib.rs:60 `type Address = ethereum_types::Address` (H160). -/
abbrev Address := { l : List UInt8 // l.length = 20 }

/-- ethabi/src/lib.rs:69,72 `Int`, `Uint` = `ethereum_types::U256`. -/
abbrev U256 := BitVec 256

/-- Big-endian bytes of `n`, `k` of them (higher digits dropped). `to_be_bytes`. -/
def beBytes : Nat → Nat → Bytes
  | 0, _ => []
  | k + 1, n => beBytes k (n / 256) ++ [UInt8.ofNat n]

/-- Value of a big-endian byte string. -/
def beNat (l : Bytes) : Nat := l.foldl (fun acc b => acc * 256 + b.toNat) 0

@[simp] theorem length_beBytes (k n : Nat) : (beBytes k n).length = k := by
  induction k generalizing n with
  | zero => rfl
  | succ k ih => simp [beBytes, ih]

/-- `U256 → [u8; 32]` (`Into`), big endian. ethabi/src/encoder.rs:140-141. -/
def U256.toWord (v : U256) : Word := ⟨beBytes 32 v.toNat, by simp⟩

/-- `[u8; 32] → U256` (`Into`), big endian. ethabi/src/decoder.rs:100,105. -/
def U256.ofWord (w : Word) : U256 := BitVec.ofNat 256 (beNat w.1)

/-- `n as u32`: truncation, in both profiles. -/
def asU32 (n : Nat) : Nat := n % 2 ^ 32

/-- result of a machine operation whose exact value is `n`, for a type with `2^bits` values -/
def machine (prof : Profile) (bits n : Nat) : Res Nat :=
  if n < 2 ^ bits then .ok n
  else match prof with
    | .debug => .panic
    | .release => .ok (n % 2 ^ bits)

/-- `u32 + u32` -/
def u32add (prof : Profile) (a b : Nat) : Res Nat := machine prof 32 (a + b)

/-- `u32 * u32` -/
def u32mul (prof : Profile) (a b : Nat) : Res Nat := machine prof 32 (a * b)

/-- `usize + usize` on a 64-bit target -/
def usizeAdd (prof : Profile) (a b : Nat) : Res Nat := machine prof 64 (a + b)

/-- `&data[a..b]` on a byte slice: panics when out of range. -/
def slice (data : Bytes) (a b : Nat) : Res Bytes :=
  if a ≤ b ∧ b ≤ data.length then .ok ((data.drop a).take (b - a)) else .panic

/-- `&data[a..]` on a byte slice: panics when out of range. -/
def sliceFrom (data : Bytes) (a : Nat) : Res Bytes :=
  if a ≤ data.length then .ok (data.drop a) else .panic

end Ethabi
