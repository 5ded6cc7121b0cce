import Verif.Base.R

/-!
# Integers and bytes

`from_le_bytes`, `from_be_bytes`, `to_le_bytes` and `to_be_bytes` of the Rust standard library, and
the `bytes_to_*!` macros of `keramics-types/src/macros.rs` built on them.
-/

namespace Keramics

/-- Standard library `from_le_bytes` of an unsigned type. -/
def leNat : List Byte → Nat
  | [] => 0
  | b :: bs => b.toNat + 256 * leNat bs

/-- Standard library `from_be_bytes` of an unsigned type. -/
def beNat (bs : List Byte) : Nat := leNat bs.reverse

/-- Standard library `to_le_bytes` of an unsigned type of `n` bytes. -/
def leBytes : Nat → Nat → List Byte
  | 0, _ => []
  | n + 1, v => BitVec.ofNat 8 v :: leBytes n (v / 256)

/-- Standard library `to_be_bytes` of an unsigned type of `n` bytes. -/
def beBytes (n v : Nat) : List Byte := (leBytes n v).reverse

/-- Reinterpretation of an unsigned value of `n` bits as two's complement (`from_*_bytes` of the
signed types). -/
def toSigned (n v : Nat) : Int := if v < 2 ^ (n - 1) then v else (v : Int) - 2 ^ n

/-- `bytes_to_u16_le!`, macros.rs:78-83. -/
def u16le (data : List Byte) (off : Nat) : R Nat := do return leNat (← R.slice data off (off + 2))
/-- `bytes_to_u32_le!`, macros.rs:94-99. -/
def u32le (data : List Byte) (off : Nat) : R Nat := do return leNat (← R.slice data off (off + 4))
/-- `bytes_to_u64_le!`, macros.rs:110-115. -/
def u64le (data : List Byte) (off : Nat) : R Nat := do return leNat (← R.slice data off (off + 8))
/-- `bytes_to_u16_be!`, macros.rs:70-75. -/
def u16be (data : List Byte) (off : Nat) : R Nat := do return beNat (← R.slice data off (off + 2))
/-- `bytes_to_u32_be!`, macros.rs:86-91. -/
def u32be (data : List Byte) (off : Nat) : R Nat := do return beNat (← R.slice data off (off + 4))
/-- `bytes_to_u64_be!`, macros.rs:102-107. -/
def u64be (data : List Byte) (off : Nat) : R Nat := do return beNat (← R.slice data off (off + 8))
/-- `bytes_to_i16_le!`, macros.rs:23-28. -/
def i16le (data : List Byte) (off : Nat) : R Int := do
  return toSigned 16 (leNat (← R.slice data off (off + 2)))
/-- `bytes_to_i32_le!`, macros.rs:39-44. -/
def i32le (data : List Byte) (off : Nat) : R Int := do
  return toSigned 32 (leNat (← R.slice data off (off + 4)))
/-- `bytes_to_i64_le!`, macros.rs:55-60. -/
def i64le (data : List Byte) (off : Nat) : R Int := do
  return toSigned 64 (leNat (← R.slice data off (off + 8)))
/-- `bytes_to_i16_be!`, macros.rs:15-20. -/
def i16be (data : List Byte) (off : Nat) : R Int := do
  return toSigned 16 (beNat (← R.slice data off (off + 2)))
/-- `bytes_to_i32_be!`, macros.rs:31-36. -/
def i32be (data : List Byte) (off : Nat) : R Int := do
  return toSigned 32 (beNat (← R.slice data off (off + 4)))
/-- `bytes_to_i64_be!`, macros.rs:47-52. -/
def i64be (data : List Byte) (off : Nat) : R Int := do
  return toSigned 64 (beNat (← R.slice data off (off + 8)))

/-- `l[a..b].copy_from_slice(new)` and `l[a..b].fill(0)`: panics unless the range is valid and the
lengths agree. -/
def R.splice {α} (l : List α) (a b : Nat) (new : List α) : R (List α) :=
  if a ≤ b ∧ b ≤ l.length ∧ new.length = b - a then .ok (l.take a ++ new ++ l.drop b) else .panic

theorem R.splice_ok {α} {l : List α} {a b : Nat} {new : List α} (h1 : a ≤ b) (h2 : b ≤ l.length)
    (h3 : new.length = b - a) : R.splice l a b new = .ok (l.take a ++ new ++ l.drop b) := by
  simp [R.splice, h1, h2, h3]

@[simp] theorem leBytes_length (n v : Nat) : (leBytes n v).length = n := by
  induction n generalizing v with
  | zero => rfl
  | succ n ih => simp [leBytes, ih]

@[simp] theorem beBytes_length (n v : Nat) : (beBytes n v).length = n := by simp [beBytes]

theorem leNat_lt (bs : List Byte) : leNat bs < 256 ^ bs.length := by
  induction bs with
  | nil => decide
  | cons b bs ih =>
    have := b.isLt
    simp only [leNat, List.length_cons, Nat.pow_succ]; omega

theorem beNat_lt (bs : List Byte) : beNat bs < 256 ^ bs.length := by
  have := leNat_lt bs.reverse
  simpa [beNat] using this

theorem leNat_append (a b : List Byte) : leNat (a ++ b) = leNat a + 256 ^ a.length * leNat b := by
  induction a with
  | nil => simp [leNat]
  | cons x xs ih =>
    simp only [List.cons_append, leNat, ih, List.length_cons, Nat.pow_succ, Nat.mul_add]
    rw [Nat.mul_comm (256 ^ xs.length) 256, Nat.mul_assoc]; omega

theorem leNat_leBytes (n v : Nat) : leNat (leBytes n v) = v % 256 ^ n := by
  induction n generalizing v with
  | zero => simp [leBytes, leNat, Nat.mod_one]
  | succ n ih =>
    simp only [leBytes, leNat, ih, BitVec.toNat_ofNat]
    rw [Nat.pow_succ 256 n, Nat.mul_comm (256 ^ n) 256, Nat.mod_mul]

theorem beNat_beBytes (n v : Nat) : beNat (beBytes n v) = v % 256 ^ n := by
  simp [beNat, beBytes, leNat_leBytes]

theorem leBytes_leNat (bs : List Byte) : leBytes bs.length (leNat bs) = bs := by
  induction bs with
  | nil => rfl
  | cons b bs ih =>
    have hb := b.isLt
    simp only [List.length_cons, leBytes, leNat]
    congr 1
    · apply BitVec.eq_of_toNat_eq; rw [BitVec.toNat_ofNat]; omega
    · rw [show (b.toNat + 256 * leNat bs) / 256 = leNat bs by omega, ih]

theorem beBytes_beNat (bs : List Byte) : beBytes bs.length (beNat bs) = bs := by
  have := leBytes_leNat bs.reverse
  rw [List.length_reverse] at this
  simp [beBytes, beNat, this]

end Keramics
