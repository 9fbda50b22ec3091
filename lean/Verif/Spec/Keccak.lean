import Verif.Model.Basic
/-!
# Keccak-256

The hash is a parameter of the model; theorems hold for every hash function.  This file is Keccak-256 itself, which the code takes
from the crate `sha3` (signature.rs:13, event.rs:12).  Tests use it to check the texts that are hashed against the
selectors and topics written in the unit tests of the Rust code, and counterexamples use it to show that they are not due
to a made-up hash.
-/
namespace Ethabi.Keccak

/-- round constants of Keccak-f[1600] -/
def roundConstants : List Nat :=
  [0x0000000000000001, 0x0000000000008082, 0x800000000000808A, 0x8000000080008000, 0x000000000000808B,
   0x0000000080000001, 0x8000000080008081, 0x8000000000008009, 0x000000000000008A, 0x0000000000000088,
   0x0000000080008009, 0x000000008000000A, 0x000000008000808B, 0x800000000000008B, 0x8000000000008089,
   0x8000000000008003, 0x8000000000008002, 0x8000000000000080, 0x000000000000800A, 0x800000008000000A,
   0x8000000080008081, 0x8000000000008080, 0x0000000080000001, 0x8000000080008008]

/-- rotation offsets, lane `x + 5 y` -/
def rotations : List Nat :=
  [0, 1, 62, 28, 27, 36, 44, 6, 55, 20, 3, 10, 43, 25, 39, 41, 45, 15, 21, 8, 18, 2, 61, 56, 14]

def rotl (v n : Nat) : Nat := ((v <<< n) ||| (v >>> (64 - n))) % 2 ^ 64

/-- lane `i` of a state -/
def lane (s : List Nat) (i : Nat) : Nat := s.getD i 0

def theta (s : List Nat) : List Nat :=
  let c := (List.range 5).map fun x => (((lane s x ^^^ lane s (x + 5)) ^^^ lane s (x + 10)) ^^^ lane s (x + 15)) ^^^ lane s (x + 20)
  let d := (List.range 5).map fun x => lane c ((x + 4) % 5) ^^^ rotl (lane c ((x + 1) % 5)) 1
  (List.range 25).map fun i => lane s i ^^^ lane d (i % 5)

/-- rho and pi: lane (x, y) moves to (y, 2x + 3y) -/
def rhoPi (s : List Nat) : List Nat :=
  (List.range 25).map fun i =>
    let x := i % 5
    let y := i / 5
    -- the lane that arrives at (x, y) starts at (x + 3 y, x)
    let j := (x + 3 * y) % 5 + 5 * x
    rotl (lane s j) (lane rotations j)

def chi (s : List Nat) : List Nat :=
  (List.range 25).map fun i =>
    let x := i % 5
    let r := i - x
    lane s i ^^^ ((2 ^ 64 - 1 - lane s (r + (x + 1) % 5)) &&& lane s (r + (x + 2) % 5))

def iota (rc : Nat) : List Nat → List Nat
  | [] => []
  | a :: l => (a ^^^ rc) :: l

/-- forces every lane before the next step, so that kernel evaluation does not duplicate work -/
def force : List Nat → (List Nat → List Nat) → List Nat
  | [], k => k []
  | a :: l, k => if a = 0 then force l (fun l => k (0 :: l)) else force l (fun l => k (a :: l))

def keccakF (s : List Nat) : List Nat :=
  roundConstants.foldl (fun s rc => force (theta s) fun s => force (rhoPi s) fun s => force (chi s) (iota rc)) s

/-- eight bytes, least significant first -/
def leNat (b : Bytes) : Nat := b.foldr (fun x acc => acc * 256 + x.toNat) 0

def leBytes : Nat → Nat → Bytes
  | 0, _ => []
  | n + 1, v => UInt8.ofNat (v % 256) :: leBytes n (v / 256)

/-- absorb blocks of 136 bytes -/
def absorb : Nat → Bytes → List Nat → List Nat
  | 0, _, s => s
  | n + 1, b, s =>
    absorb n (b.drop 136)
      (keccakF ((List.range 25).map fun i =>
        if i < 17 then lane s i ^^^ leNat ((b.drop (8 * i)).take 8) else lane s i))

/-- Keccak padding: 0x01, zeros, 0x80 -/
def padKeccak (b : Bytes) : Bytes :=
  let k := 136 - b.length % 136
  if k = 1 then b ++ [0x81] else b ++ [0x01] ++ List.replicate (k - 2) 0 ++ [0x80]

/-- Keccak-256 -/
def keccak256 (b : Bytes) : Word :=
  let p := padKeccak b
  let out := ((absorb (p.length / 136) p (List.replicate 25 0)).take 4).flatMap (leBytes 8)
  if h : out.length = 32 then ⟨out, h⟩ else ⟨List.replicate 32 0, by simp⟩

end Ethabi.Keccak
