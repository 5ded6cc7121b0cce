import Verif.Model.Hashes
import Verif.Spec.MD5
import Mathlib.Analysis.Complex.Basic

/-! The table `MD5_SINES` is `⌊2^32 |sin i|⌋`: powers of `exp I` with rational error bounds. -/

namespace Keramics.Digest.Sines
open Complex Finset

theorem I_pow_mod (m : ℕ) : (I : ℂ) ^ m = I ^ (m % 4) := by
  conv_lhs => rw [← Nat.div_add_mod m 4, pow_add, pow_mul, I_pow_four, one_pow, one_mul]

noncomputable def C1 : ℝ := 607300185015708631061 / 1124000727777607680000
noncomputable def S1 : ℝ := 4350744396907953273869 / 5170403347776995328000

theorem partialSum : ∑ m ∈ range 24, (I : ℂ) ^ m / (m.factorial : ℂ) = (C1 : ℂ) + (S1 : ℂ) * I := by
  simp only [Finset.sum_range_succ, Finset.sum_range_zero]
  rw [I_pow_mod 4, I_pow_mod 5, I_pow_mod 6, I_pow_mod 7, I_pow_mod 8, I_pow_mod 9, I_pow_mod 10,
    I_pow_mod 11, I_pow_mod 12, I_pow_mod 13, I_pow_mod 14, I_pow_mod 15, I_pow_mod 16,
    I_pow_mod 17, I_pow_mod 18, I_pow_mod 19, I_pow_mod 20, I_pow_mod 21, I_pow_mod 22,
    I_pow_mod 23]
  norm_num only [Nat.factorial]
  simp only [I_mul_I, pow_succ, pow_zero, one_mul]
  unfold C1 S1
  push_cast
  ring_nf

theorem exp_I_bound : ‖exp I - ((C1 : ℂ) + (S1 : ℂ) * I)‖ ≤ 1 / 2 ^ 76 := by
  have h := exp_bound (x := I) (by simp) (n := 24) (by norm_num)
  rw [partialSum] at h
  refine h.trans ?_
  rw [norm_I]
  norm_num [Nat.factorial]

/-- Scale. -/
def D : ℤ := 2 ^ 80
def A : ℤ := 653185407961314874212932
def B : ℤ := 1017275999990815458903785

theorem norm_le_abs_add (x y : ℝ) : ‖(x : ℂ) + (y : ℂ) * I‖ ≤ |x| + |y| := by
  refine (norm_add_le _ _).trans ?_
  rw [norm_mul, norm_I, mul_one, norm_real, norm_real]
  exact le_rfl

/-- Powers of `(A + B I)/D`, rounded. -/
def seq : ℕ → ℤ × ℤ
  | 0 => (D, 0)
  | n + 1 => (((seq n).1 * A - (seq n).2 * B) / D, ((seq n).1 * B + (seq n).2 * A) / D)

noncomputable def q (n : ℕ) : ℂ := (((seq n).1 / D : ℝ) : ℂ) + (((seq n).2 / D : ℝ) : ℂ) * I

theorem D_pos : (0 : ℝ) < D := by
  have hD : (0 : ℤ) < D := by decide
  exact_mod_cast hD

theorem div_err (x : ℤ) : |(x : ℝ) / D - ((x / D : ℤ) : ℝ)| ≤ 1 := by
  have hD : (0 : ℤ) < D := by decide
  have hD' := D_pos
  have h1 := Int.emod_add_mul_ediv x D
  have h2 := Int.emod_nonneg x hD.ne'
  have h3 := Int.emod_lt_of_pos x hD
  generalize x / D = y at *
  generalize x % D = r at *
  subst h1
  have h5 : ((r + D * y : ℤ) : ℝ) / D - (y : ℝ) = (r : ℝ) / D := by
    push_cast
    field_simp
    ring
  have h2' : (0 : ℝ) ≤ r := by exact_mod_cast h2
  have h3' : (r : ℝ) ≤ D := by exact_mod_cast h3.le
  rw [h5, abs_of_nonneg (by positivity), div_le_one hD']
  exact h3'

/-- The first approximation, exactly. -/
noncomputable def q1 : ℂ := ((A / D : ℝ) : ℂ) + ((B / D : ℝ) : ℂ) * I

theorem q1_bound : ‖exp I - q1‖ ≤ 1 / 2 ^ 75 := by
  have h : ‖((C1 : ℂ) + (S1 : ℂ) * I) - q1‖ ≤ 1 / 2 ^ 76 := by
    have e : ((C1 : ℂ) + (S1 : ℂ) * I) - q1
        = ((C1 - A / D : ℝ) : ℂ) + ((S1 - B / D : ℝ) : ℂ) * I := by
      unfold q1; push_cast; ring
    rw [e]
    refine (norm_le_abs_add _ _).trans ?_
    unfold C1 S1 A B D
    norm_num [abs_of_nonneg, abs_of_neg]
  calc ‖exp I - q1‖ = ‖(exp I - ((C1 : ℂ) + (S1 : ℂ) * I)) + (((C1 : ℂ) + (S1 : ℂ) * I) - q1)‖ := by
        congr 1; ring
    _ ≤ _ := norm_add_le _ _
    _ ≤ 1 / 2 ^ 76 + 1 / 2 ^ 76 := add_le_add exp_I_bound h
    _ = 1 / 2 ^ 75 := by norm_num

theorem round_bound (n : ℕ) : ‖q n * q1 - q (n + 1)‖ ≤ 1 / 2 ^ 79 := by
  have hD := D_pos
  have e : q n * q1 - q (n + 1)
      = (((((seq n).1 * A - (seq n).2 * B : ℤ) : ℝ) / D - ((seq (n + 1)).1 : ℝ)) / D : ℝ)
        + (((((seq n).1 * B + (seq n).2 * A : ℤ) : ℝ) / D - ((seq (n + 1)).2 : ℝ)) / D : ℝ) * I := by
    have hD' : (D : ℂ) ≠ 0 := by
      have : (D : ℝ) ≠ 0 := hD.ne'
      exact_mod_cast this
    unfold q q1
    apply Complex.ext
    · simp; field_simp
    · simp; field_simp
  rw [e]
  refine (norm_le_abs_add _ _).trans ?_
  rw [abs_div, abs_div, abs_of_pos hD]
  have h1 := div_err ((seq n).1 * A - (seq n).2 * B)
  have h2 := div_err ((seq n).1 * B + (seq n).2 * A)
  have h1' : |(((seq n).1 * A - (seq n).2 * B : ℤ) : ℝ) / D - ((seq (n + 1)).1 : ℝ)| / D ≤ 1 / D := by
    gcongr; exact h1
  have h2' : |(((seq n).1 * B + (seq n).2 * A : ℤ) : ℝ) / D - ((seq (n + 1)).2 : ℝ)| / D ≤ 1 / D := by
    gcongr; exact h2
  refine (add_le_add h1' h2').trans ?_
  unfold D; norm_num

theorem pow_bound (n : ℕ) (hn : n ≤ 64) : ‖exp I ^ n - q n‖ ≤ n / 2 ^ 70 := by
  induction n with
  | zero =>
    have : q 0 = 1 := by
      unfold q seq
      have hD : (D : ℝ) ≠ 0 := D_pos.ne'
      simp [hD]
    simp [this]
  | succ n ih =>
    have ih := ih (by omega)
    have hz : ‖exp I‖ = 1 := by simpa using norm_exp_ofReal_mul_I 1
    have hn' : (n : ℝ) ≤ 64 := by exact_mod_cast (by omega : n ≤ 64)
    have hq : ‖q n‖ ≤ 2 := by
      calc ‖q n‖ = ‖exp I ^ n - (exp I ^ n - q n)‖ := by congr 1; ring
        _ ≤ ‖exp I ^ n‖ + ‖exp I ^ n - q n‖ := norm_sub_le _ _
        _ ≤ 1 + 64 / 2 ^ 70 := by
            rw [norm_pow, hz, one_pow]
            have : (n : ℝ) / 2 ^ 70 ≤ 64 / 2 ^ 70 := by gcongr
            linarith
        _ ≤ 2 := by norm_num
    have e : exp I ^ (n + 1) - q (n + 1)
        = exp I * (exp I ^ n - q n) + (q n * (exp I - q1) + (q n * q1 - q (n + 1))) := by ring
    rw [e]
    have b1 : ‖exp I * (exp I ^ n - q n)‖ ≤ n / 2 ^ 70 := by rw [norm_mul, hz, one_mul]; exact ih
    have b2 : ‖q n * (exp I - q1)‖ ≤ 2 * (1 / 2 ^ 75) := by
      rw [norm_mul]
      exact mul_le_mul hq q1_bound (norm_nonneg _) (by norm_num)
    calc _ ≤ ‖exp I * (exp I ^ n - q n)‖ + ‖q n * (exp I - q1) + (q n * q1 - q (n + 1))‖ :=
          norm_add_le _ _
      _ ≤ ‖exp I * (exp I ^ n - q n)‖ + (‖q n * (exp I - q1)‖ + ‖q n * q1 - q (n + 1)‖) := by
          gcongr; exact norm_add_le _ _
      _ ≤ n / 2 ^ 70 + (2 * (1 / 2 ^ 75) + 1 / 2 ^ 79) := by
          gcongr; exact round_bound n
      _ ≤ _ := by push_cast; norm_num; linarith

theorem sin_bound (n : ℕ) (hn : n ≤ 64) : |Real.sin n - (seq n).2 / D| ≤ 1 / 2 ^ 64 := by
  have h := pow_bound n hn
  have e : exp I ^ n = exp ((n : ℝ) * I) := by
    rw [← exp_nat_mul]; push_cast; rfl
  have him : (exp I ^ n - q n).im = Real.sin n - (seq n).2 / D := by
    rw [e, sub_im, exp_ofReal_mul_I_im]
    unfold q
    simp
  rw [← him]
  refine (abs_im_le_norm _).trans (h.trans ?_)
  have hn' : (n : ℝ) ≤ 64 := by exact_mod_cast hn
  calc (n : ℝ) / 2 ^ 70 ≤ 64 / 2 ^ 70 := by gcongr
    _ = 1 / 2 ^ 64 := by norm_num

/-- Integer check of one entry. -/
def entryOk (n : ℕ) (T : ℤ) : Bool :=
  decide (T * D + 2 ^ 48 ≤ 2 ^ 32 * |(seq n).2|) && decide (2 ^ 32 * |(seq n).2| + 2 ^ 48 < (T + 1) * D)

theorem entry (n : ℕ) (hn : n ≤ 64) (T : ℕ) (h : entryOk n T = true) :
    ⌊(4294967296 : ℝ) * |Real.sin (n : ℝ)|⌋₊ = T := by
  simp only [entryOk, Bool.and_eq_true, decide_eq_true_eq] at h
  obtain ⟨h1, h2⟩ := h
  have h1' : (T : ℝ) * D + 2 ^ 48 ≤ 2 ^ 32 * |((seq n).2 : ℝ)| := by exact_mod_cast h1
  have h2' : 2 ^ 32 * |((seq n).2 : ℝ)| + 2 ^ 48 < ((T : ℝ) + 1) * D := by exact_mod_cast h2
  have hD := D_pos
  have hs := sin_bound n hn
  have habs : |(|Real.sin n| - |((seq n).2 : ℝ)| / D)| ≤ 1 / 2 ^ 64 := by
    refine le_trans ?_ hs
    have := abs_abs_sub_abs_le_abs_sub (Real.sin n) ((seq n).2 / D)
    rwa [abs_div, abs_of_pos hD] at this
  obtain ⟨l1, l2⟩ := abs_le.mp habs
  have hDv : (D : ℝ) = 2 ^ 80 := by unfold D; norm_num
  have hb : |((seq n).2 : ℝ)| / D * 2 ^ 80 = |((seq n).2 : ℝ)| := by
    rw [hDv]; field_simp
  rw [hDv] at h1' h2'
  rw [Nat.floor_eq_iff (by positivity)]
  constructor <;> nlinarith

theorem table (i : ℕ) (hi : i < 64) :
    Digest.md5Sines[i]'(by exact hi) = Spec.md5T (i + 1) := by
  have key : ∀ j : Fin 64, entryOk (j.1 + 1) ((Digest.md5Sines[j.1]'(by exact j.2)).toNat : ℤ) = true := by
    decide +kernel
  unfold Spec.md5T
  rw [entry (i + 1) (by omega) _ (key ⟨i, hi⟩)]
  simp

end Keramics.Digest.Sines
