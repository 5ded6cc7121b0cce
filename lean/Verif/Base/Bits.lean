/-! Bit masks of natural numbers. -/

namespace Keramics

theorem and_two_pow (x n : Nat) : x &&& 2 ^ n = if x.testBit n then 2 ^ n else 0 := by
  apply Nat.eq_of_testBit_eq
  intro i
  rw [Nat.testBit_and, Nat.testBit_two_pow]
  by_cases h : n = i
  · subst h
    cases hx : x.testBit n <;> simp
  · cases hx : x.testBit n <;> simp [h]

theorem and_two_pow_ne_zero (x n : Nat) : x &&& 2 ^ n ≠ 0 ↔ x / 2 ^ n % 2 = 1 := by
  rw [and_two_pow, Nat.testBit_eq_decide_div_mod_eq]
  by_cases h : x / 2 ^ n % 2 = 1
  · simp [h]
  · simp [h]

theorem shl_or {k a b : Nat} (hb : b < 2 ^ k) : (a <<< k) ||| b = a * 2 ^ k + b := by
  rw [Nat.shiftLeft_eq, Nat.mul_comm a (2 ^ k), Nat.two_pow_add_eq_or_of_lt hb a]

end Keramics
