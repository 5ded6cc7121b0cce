import Verif.Base.Tactics
import Verif.Model.Windows932

/-! Lemmas on Windows 932: what is true of every byte, pair of bytes and code point. -/

namespace Keramics.Windows932

/-! Decision procedures. They run over all bytes, all pairs of bytes and all code points of the arms
of the encoder, in parts so that the kernel can forget what it has evaluated. -/

/-- Whether a test holds of all numbers below a bound. -/
def allBelow : Nat → (Nat → Bool) → Bool
  | 0, _ => true
  | n + 1, p => p n && allBelow n p

theorem allBelow_of {n : Nat} {p : Nat → Bool} (h : allBelow n p = true) (i : Nat) (hi : i < n) :
    p i = true := by
  induction n with
  | zero => omega
  | succ n ih =>
    rw [allBelow, Bool.and_eq_true] at h
    rcases Nat.lt_succ_iff_lt_or_eq.1 hi with h3 | rfl
    · exact ih h.2 h3
    · exact h.1

/-- Whether a test holds of the `k` numbers before `n`. -/
def down (p : Nat → Bool) : Nat → Nat → Bool
  | 0, _ => true
  | _ + 1, 0 => true
  | k + 1, n + 1 => p n && down p k n

theorem down_of {p : Nat → Bool} {k n : Nat} (h : down p k n = true) (i : Nat) (h1 : i < n)
    (h2 : n ≤ i + k) : p i = true := by
  induction k generalizing n with
  | zero => omega
  | succ k ih =>
    match n, h with
    | n + 1, h =>
      rw [down, Bool.and_eq_true] at h
      rcases Nat.lt_succ_iff_lt_or_eq.1 h1 with h3 | rfl
      · exact ih h.2 h3 (by omega)
      · exact h.1

/-- `encodeArm` with tests that the kernel evaluates fast. -/
def armFast : List (Nat × Nat × Table) → Nat → R Nat
  | [], c => encodeConst encoderConsts c
  | (lo, hi, t) :: rest, c =>
    bif Nat.ble lo c && Nat.blt c hi then t.get (c - lo) else armFast rest c

theorem armFast_eq (l : List (Nat × Nat × Table)) (c : Nat) : armFast l c = encodeArm l c := by
  induction l with
  | nil => rfl
  | cons x l ih =>
    obtain ⟨lo, hi, t⟩ := x
    rw [armFast, encodeArm, ih]
    by_cases h : lo ≤ c ∧ c < hi
    · rw [if_pos h]
      have : (Nat.ble lo c && Nat.blt c hi) = true := by
        rw [Bool.and_eq_true, Nat.ble_eq, Nat.blt_eq]; exact h
      rw [this]; rfl
    · rw [if_neg h]
      have : (Nat.ble lo c && Nat.blt c hi) = false := by
        rw [← Bool.not_eq_true, Bool.and_eq_true, Nat.ble_eq, Nat.blt_eq]; exact h
      rw [this]; rfl

/-- The arms below U+4e00. -/
def earlyArms : List (Nat × Nat × Table) := [
  (0x00a0, 0x00b8, enc00a0),
  (0x0390, 0x03d0, enc0390),
  (0x0400, 0x0458, enc0400),
  (0x2010, 0x2040, enc2010),
  (0x2160, 0x2198, enc2160),
  (0x2200, 0x228f, enc2200),
  (0x2460, 0x2478, enc2460),
  (0x25a0, 0x2608, enc25a0),
  (0x2640, 0x2670, enc2640),
  (0x2500, 0x2550, enc2500),
  (0x3000, 0x3020, enc3000),
  (0x3040, 0x3100, enc3040),
  (0x3230, 0x3240, enc3230),
  (0x32a0, 0x32b0, enc32a0),
  (0x3300, 0x33d0, enc3300)]

/-- The arms from U+4e00. -/
def lateArms : List (Nat × Nat × Table) := [
  (0x4e00, 0x7ea0, enc4e00),
  (0x7f30, 0x8ba0, enc7f30),
  (0x8c30, 0x8d18, enc8c30),
  (0x8d60, 0x8f68, enc8d60),
  (0x8f98, 0x9488, enc8f98),
  (0x9570, 0x95e8, enc9570),
  (0x9618, 0x9878, enc9618),
  (0x98a8, 0x9958, enc98a8),
  (0x9990, 0x9a70, enc9990),
  (0x9aa8, 0x9c80, enc9aa8),
  (0x9ce0, 0x9e20, enc9ce0),
  (0x9e70, 0x9fa8, enc9e70),
  (0xfa08, 0xfa30, encfa08),
  (0xff00, 0xffa0, encff00),
  (0xffe0, 0xffe8, encffe0)]

theorem arms_eq : encoderArms = earlyArms ++ lateArms := rfl

theorem encodeArm_skip (l1 l2 : List (Nat × Nat × Table)) (c : Nat) (h : ∀ x ∈ l1, x.2.1 ≤ c) :
    encodeArm (l1 ++ l2) c = encodeArm l2 c := by
  induction l1 with
  | nil => rfl
  | cons x l1 ih =>
    obtain ⟨lo, hi, t⟩ := x
    have h1 := h _ List.mem_cons_self
    simp only at h1
    rw [List.cons_append, encodeArm, if_neg (by omega), ih fun x hx => h x (List.mem_cons_of_mem _ hx)]

theorem early_below : ∀ x ∈ earlyArms, x.2.1 ≤ 0x4e00 := by
  have h : (earlyArms.all fun x => Nat.ble x.2.1 0x4e00) = true := by decide +kernel
  intro x hx
  exact Nat.le_of_ble_eq_true (List.all_eq_true.1 h x hx)

/-- `encodeEntry`, faster. -/
def fast (c : Nat) : R Nat :=
  bif Nat.blt c 0x80 then .ok c
  else bif Nat.blt c 0x4e00 then armFast encoderArms c else armFast lateArms c

theorem fast_eq (c : Nat) : fast c = encodeEntry c := by
  rw [fast, encodeEntry]
  by_cases h : c < 0x80
  · have h1 : Nat.blt c 0x80 = true := by rw [Nat.blt_eq]; exact h
    rw [if_pos h, h1]; rfl
  · rw [if_neg h]
    have h1 : Nat.blt c 0x80 = false := by rw [← Bool.not_eq_true, Nat.blt_eq]; exact h
    rw [h1]
    by_cases h2 : c < 0x4e00
    · have h3 : Nat.blt c 0x4e00 = true := by rw [Nat.blt_eq]; exact h2
      rw [h3]; exact armFast_eq _ _
    · have h3 : Nat.blt c 0x4e00 = false := by rw [← Bool.not_eq_true, Nat.blt_eq]; exact h2
      rw [h3, arms_eq, encodeArm_skip _ _ _ fun x hx => Nat.le_trans (early_below x hx) (by omega)]
      exact armFast_eq _ _

/-- Test of the second codes of characters, see `Spec.Windows932.Second`. -/
def isSecond (b a : Nat) : Bool :=
  (Nat.beq b 0x87 && [0x90, 0x91, 0x92, 0x95, 0x96, 0x97, 0x9a, 0x9b, 0x9c].any (Nat.beq a)) ||
    (Nat.beq b 0xee && Nat.beq a 0xf9) || (Nat.ble 0xfa b && Nat.ble b 0xfc)

/-- Test of a code point that was decoded. -/
def isScalar (c : Nat) : Bool := Nat.blt c 0xd800 || (Nat.ble 0xe000 c && Nat.blt c 0x10000)

/-- Test of a byte that ends a character. -/
def isEnd (a : Nat) : Bool := Nat.ble 0x40 a && Nat.ble a 0xfc && !(Nat.beq a 0x7f)

/-- Test of two bytes. -/
def pairOk (b a : Nat) : Bool :=
  match decodeBytes b a with
  | .ok c =>
    isEnd a && isScalar c &&
    match fast c with
    | .ok v => Nat.ble 256 v && (Nat.beq v (b * 256 + a) == !isSecond b a)
    | _ => false
  | .err => true
  | .panic => false

/-- Test of one byte. -/
def byteOk (b : Nat) : Bool :=
  bif isLead b then allBelow 256 (pairOk b)
  else
    match decodeBytes b 0 with
    | .ok c =>
      (Nat.blt b 0x80 || (Nat.ble 0xa1 b && Nat.ble b 0xdf)) && isScalar c &&
      match fast c with
      | .ok v => Nat.beq v b
      | _ => false
    | .err => true
    | .panic => false

/-- Test of the entry of a code point. -/
def entryOk (c v : Nat) : Bool :=
  bif Nat.blt v 256 then
    !isLead v && match decodeBytes v 0 with
    | .ok d => Nat.beq d c
    | _ => false
  else
    Nat.blt v 65536 && isLead (v / 256) && match decodeBytes (v / 256) (v % 256) with
    | .ok d => Nat.beq d c
    | _ => false

/-- Test of one code point. -/
def pointOk (c : Nat) : Bool :=
  match fast c with
  | .ok v => entryOk c v
  | .err => true
  | .panic => false

private theorem bytes0 : down byteOk 0x80 0x80 = true := by decide +kernel
private theorem bytes1 : down byteOk 8 0x88 = true := by decide +kernel
private theorem bytes2 : down byteOk 8 0x90 = true := by decide +kernel
private theorem bytes3 : down byteOk 8 0x98 = true := by decide +kernel
private theorem bytes4 : down byteOk 8 0xa0 = true := by decide +kernel
private theorem bytes5 : down byteOk 8 0xa8 = true := by decide +kernel
private theorem bytes6 : down byteOk 8 0xb0 = true := by decide +kernel
private theorem bytes7 : down byteOk 8 0xb8 = true := by decide +kernel
private theorem bytes8 : down byteOk 8 0xc0 = true := by decide +kernel
private theorem bytes9 : down byteOk 8 0xc8 = true := by decide +kernel
private theorem bytes10 : down byteOk 8 0xd0 = true := by decide +kernel
private theorem bytes11 : down byteOk 8 0xd8 = true := by decide +kernel
private theorem bytes12 : down byteOk 8 0xe0 = true := by decide +kernel
private theorem bytes13 : down byteOk 8 0xe8 = true := by decide +kernel
private theorem bytes14 : down byteOk 8 0xf0 = true := by decide +kernel
private theorem bytes15 : down byteOk 8 0xf8 = true := by decide +kernel
private theorem bytes16 : down byteOk 8 0x100 = true := by decide +kernel

private theorem points0 : down pointOk 0x80 0x80 = true := by decide +kernel
private theorem points1 : down pointOk 0x800 0x5600 = true := by decide +kernel
private theorem points2 : down pointOk 0x800 0x5e00 = true := by decide +kernel
private theorem points3 : down pointOk 0x800 0x6600 = true := by decide +kernel
private theorem points4 : down pointOk 0x800 0x6e00 = true := by decide +kernel
private theorem points5 : down pointOk 0x800 0x7600 = true := by decide +kernel
private theorem points6 : down pointOk 0x800 0x7e00 = true := by decide +kernel
private theorem points7 : down pointOk 0xa0 0x7ea0 = true := by decide +kernel

private theorem pointsEarly :
    (earlyArms.all fun x => down pointOk (x.2.1 - x.1) x.2.1) = true := by decide +kernel

private theorem pointsLate :
    ((lateArms.drop 1).take 6).all (fun x => down pointOk (x.2.1 - x.1) x.2.1) = true := by
  decide +kernel

private theorem pointsLast :
    (lateArms.drop 7).all (fun x => down pointOk (x.2.1 - x.1) x.2.1) = true := by decide +kernel

private theorem pointsConst : (encoderConsts.all fun x => pointOk x.1) = true := by decide +kernel

/-- All bytes meet the test. -/
theorem byteOk_all (b : Nat) (hb : b < 256) : byteOk b = true := by
  by_cases h0 : b < 0x80
  · exact down_of bytes0 b h0 (by omega)
  by_cases h1 : b < 0x88
  · exact down_of bytes1 b h1 (by omega)
  by_cases h2 : b < 0x90
  · exact down_of bytes2 b h2 (by omega)
  by_cases h3 : b < 0x98
  · exact down_of bytes3 b h3 (by omega)
  by_cases h4 : b < 0xa0
  · exact down_of bytes4 b h4 (by omega)
  by_cases h5 : b < 0xa8
  · exact down_of bytes5 b h5 (by omega)
  by_cases h6 : b < 0xb0
  · exact down_of bytes6 b h6 (by omega)
  by_cases h7 : b < 0xb8
  · exact down_of bytes7 b h7 (by omega)
  by_cases h8 : b < 0xc0
  · exact down_of bytes8 b h8 (by omega)
  by_cases h9 : b < 0xc8
  · exact down_of bytes9 b h9 (by omega)
  by_cases h10 : b < 0xd0
  · exact down_of bytes10 b h10 (by omega)
  by_cases h11 : b < 0xd8
  · exact down_of bytes11 b h11 (by omega)
  by_cases h12 : b < 0xe0
  · exact down_of bytes12 b h12 (by omega)
  by_cases h13 : b < 0xe8
  · exact down_of bytes13 b h13 (by omega)
  by_cases h14 : b < 0xf0
  · exact down_of bytes14 b h14 (by omega)
  by_cases h15 : b < 0xf8
  · exact down_of bytes15 b h15 (by omega)
  by_cases h16 : b < 0x100
  · exact down_of bytes16 b h16 (by omega)
  omega

theorem encodeConst_mem {l : List (Nat × Nat)} {c : Nat} (h : encodeConst l c ≠ .err) :
    ∃ x ∈ l, x.1 = c := by
  induction l with
  | nil => exact absurd rfl h
  | cons x l ih =>
    obtain ⟨k, v⟩ := x
    rw [encodeConst] at h
    split at h
    · rename_i hc; exact ⟨_, List.mem_cons_self, hc.symm⟩
    · obtain ⟨x, hx, h2⟩ := ih h
      exact ⟨x, List.mem_cons_of_mem _ hx, h2⟩

theorem encodeArm_mem {l : List (Nat × Nat × Table)} {c : Nat} (h : encodeArm l c ≠ .err) :
    (∃ x ∈ l, x.1 ≤ c ∧ c < x.2.1) ∨ ∃ x ∈ encoderConsts, x.1 = c := by
  induction l with
  | nil => exact Or.inr (encodeConst_mem h)
  | cons x l ih =>
    obtain ⟨lo, hi, t⟩ := x
    rw [encodeArm] at h
    split at h
    · rename_i hc; exact Or.inl ⟨_, List.mem_cons_self, hc⟩
    · rcases ih h with ⟨x, hx, h2⟩ | h2
      · exact Or.inl ⟨x, List.mem_cons_of_mem _ hx, h2⟩
      · exact Or.inr h2

private theorem points_big (c : Nat) (h1 : 0x4e00 ≤ c) (h2 : c < 0x7ea0) : pointOk c = true := by
  by_cases h3 : c < 0x5600
  · exact down_of points1 c h3 (by omega)
  by_cases h4 : c < 0x5e00
  · exact down_of points2 c h4 (by omega)
  by_cases h5 : c < 0x6600
  · exact down_of points3 c h5 (by omega)
  by_cases h6 : c < 0x6e00
  · exact down_of points4 c h6 (by omega)
  by_cases h7 : c < 0x7600
  · exact down_of points5 c h7 (by omega)
  by_cases h8 : c < 0x7e00
  · exact down_of points6 c h8 (by omega)
  by_cases h9 : c < 0x7ea0
  · exact down_of points7 c h9 (by omega)
  omega

theorem lateArms_split : lateArms = (0x4e00, 0x7ea0, enc4e00) ::
    ((lateArms.drop 1).take 6 ++ lateArms.drop 7) := rfl

/-- All code points meet the test. -/
theorem pointOk_all (c : Nat) : pointOk c = true := by
  by_cases h0 : c < 0x80
  · exact down_of points0 c h0 (by omega)
  by_cases he : encodeEntry c = .err
  · rw [pointOk, fast_eq, he]
  rw [encodeEntry, if_neg h0] at he
  have arm : ∀ {l : List (Nat × Nat × Table)},
      (l.all fun x => down pointOk (x.2.1 - x.1) x.2.1) = true →
      ∀ x ∈ l, x.1 ≤ c → c < x.2.1 → pointOk c = true := by
    intro l hl x hx h1 h2
    exact down_of (List.all_eq_true.1 hl x hx) c h2 (by omega)
  rcases encodeArm_mem he with ⟨x, hx, h1, h2⟩ | ⟨x, hx, rfl⟩
  · rw [arms_eq, List.mem_append, lateArms_split, List.mem_cons, List.mem_append] at hx
    rcases hx with hx | rfl | hx | hx
    · exact arm pointsEarly x hx h1 h2
    · exact points_big c h1 h2
    · exact arm pointsLate x hx h1 h2
    · exact arm pointsLast x hx h1 h2
  · exact List.all_eq_true.1 pointsConst x hx

end Keramics.Windows932
