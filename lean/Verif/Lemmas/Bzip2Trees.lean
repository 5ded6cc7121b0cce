import Verif.Lemmas.Bzip2Tables

/-! # The trees of a bzip2 block -/

namespace Keramics.Bzip2
open Keramics.Spec.Bzip2 Keramics.Spec.Huffman Keramics.Huffman

theorem sizeLoop_end {data : List Byte} {size fuel : Nat} {s : Bs} {rest : List Bool} (hs : size < 20) (hf : 0 < fuel) (h : At data s (false :: rest)) :
    ∃ s', sizeLoop data fuel size s = .ok (size, s') ∧ At data s' rest := by
  obtain ⟨fuel, rfl⟩ : ∃ f, fuel = f + 1 := ⟨fuel - 1, by omega⟩
  obtain ⟨s1, e1, h1⟩ := getBit_ok h
  refine ⟨s1, ?_, h1⟩
  unfold sizeLoop
  rw [if_pos hs, e1, R.ok_bind]
  simp

theorem sizeLoop_up {data : List Byte} (d : Nat) : ∀ (size fuel : Nat) (s : Bs) (rest : List Bool), size + d ≤ 20 →
    At data s ((List.replicate d [true, false]).flatten ++ rest) →
    ∃ s', sizeLoop data (fuel + d) size s = sizeLoop data fuel (size + d) s' ∧ At data s' rest := by
  induction d with
  | zero => intro size fuel s rest _ h; exact ⟨s, rfl, by simpa using h⟩
  | succ d ih =>
    intro size fuel s rest hs h
    rw [List.replicate_succ, List.flatten_cons, List.append_assoc] at h
    obtain ⟨s1, e1, h1⟩ := getBit_ok h
    obtain ⟨s2, e2, h2⟩ := getBit_ok h1
    obtain ⟨s3, e3, h3⟩ := ih (size + 1) fuel s2 rest (by omega) h2
    refine ⟨s3, ?_, h3⟩
    rw [show fuel + (d + 1) = (fuel + d) + 1 by omega]
    conv_lhs => unfold sizeLoop
    rw [if_pos (by omega), e1, R.ok_bind]
    simp only [Bool.toNat_true, one_ne_zero, if_false]
    rw [e2, R.ok_bind]
    simp only [Bool.toNat_false, if_true]
    rw [e3, show size + 1 + d = size + (d + 1) by omega]

theorem sizeLoop_down {data : List Byte} (d : Nat) : ∀ (size fuel : Nat) (s : Bs) (rest : List Bool), d ≤ size → size < 20 →
    At data s ((List.replicate d [true, true]).flatten ++ rest) →
    ∃ s', sizeLoop data (fuel + d) size s = sizeLoop data fuel (size - d) s' ∧ At data s' rest := by
  induction d with
  | zero => intro size fuel s rest _ _ h; exact ⟨s, rfl, by simpa using h⟩
  | succ d ih =>
    intro size fuel s rest hs hs20 h
    rw [List.replicate_succ, List.flatten_cons, List.append_assoc] at h
    obtain ⟨s1, e1, h1⟩ := getBit_ok h
    obtain ⟨s2, e2, h2⟩ := getBit_ok h1
    obtain ⟨s3, e3, h3⟩ := ih (size - 1) fuel s2 rest (by omega) (by omega) h2
    refine ⟨s3, ?_, h3⟩
    rw [show fuel + (d + 1) = (fuel + d) + 1 by omega]
    conv_lhs => unfold sizeLoop
    rw [if_pos (by omega), e1, R.ok_bind]
    simp only [Bool.toNat_true, one_ne_zero, if_false]
    rw [e2, R.ok_bind]
    simp only [Bool.toNat_true, one_ne_zero, if_false]
    rw [R.subU_ok (by omega), R.ok_bind, e3, show size - 1 - d = size - (d + 1) by omega]

theorem readSize_ok {data : List Byte} {b l : Nat} {s : Bs} {rest : List Bool} (hb : b < 20) (hl : l < 20) (h : At data s (lengthBits b l ++ rest)) :
    ∃ s', readSize data b s = .ok (l, s') ∧ At data s' rest := by
  unfold lengthBits at h
  rw [List.append_assoc, List.append_assoc] at h
  obtain ⟨s1, e1, h1⟩ := sizeLoop_up (l - b) b (8 * data.length + 33 - (l - b)) s _ (by omega) h
  obtain ⟨s2, e2, h2⟩ := sizeLoop_down (b - l) (b + (l - b)) (8 * data.length + 33 - (l - b) - (b - l)) s1 _ (by omega) (by omega) h1
  obtain ⟨s3, e3, h3⟩ := sizeLoop_end (size := b + (l - b) - (b - l)) (fuel := 8 * data.length + 33 - (l - b) - (b - l)) (by omega) (by omega) h2
  refine ⟨s3, ?_, h3⟩
  unfold readSize
  rw [show 8 * data.length + 33 - (l - b) + (l - b) = 8 * data.length + 33 by omega] at e1
  rw [show 8 * data.length + 33 - (l - b) - (b - l) + (b - l) = 8 * data.length + 33 - (l - b) by omega] at e2
  rw [e1, e2, e3, R.ok_bind]
  simp only
  rw [show b + (l - b) - (b - l) = l by omega, R.require_true hl]
  rfl

theorem readSize_err {data : List Byte} {b : Nat} {s : Bs} {rest : List Bool} (hb : b < 20) (h : At data s (lengthBits b 20 ++ rest)) :
    readSize data b s = .err := by
  unfold lengthBits at h
  rw [List.append_assoc, List.append_assoc] at h
  obtain ⟨s1, e1, h1⟩ := sizeLoop_up (20 - b) b (8 * data.length + 33 - (20 - b)) s _ (by omega) h
  unfold readSize
  rw [show 8 * data.length + 33 - (20 - b) + (20 - b) = 8 * data.length + 33 by omega, show b + (20 - b) = 20 by omega] at e1
  obtain ⟨f, hf⟩ : ∃ f, 8 * data.length + 33 - (20 - b) = f + 1 := ⟨8 * data.length + 33 - (20 - b) - 1, by omega⟩
  rw [e1, hf]
  unfold sizeLoop
  simp

/-- The largest of code lengths and another number. -/
def largestOf (m : Nat) (ls : List Nat) : Nat := ls.foldl (fun m l => max l m) m

theorem largestOf_ge (ls : List Nat) : ∀ m, m ≤ largestOf m ls ∧ ∀ l ∈ ls, l ≤ largestOf m ls := by
  induction ls with
  | nil => intro m; simp [largestOf]
  | cons a ls ih =>
    intro m
    have := ih (max a m)
    unfold largestOf at this ⊢
    simp only [List.foldl_cons, List.mem_cons]
    refine ⟨by omega, fun l hl => ?_⟩
    rcases hl with rfl | hl
    · omega
    · exact this.2 l hl

theorem largestOf_le {k : Nat} (ls : List Nat) : ∀ m, m ≤ k → (∀ l ∈ ls, l ≤ k) → largestOf m ls ≤ k := by
  induction ls with
  | nil => intro m h _; exact h
  | cons a ls ih =>
    intro m h hl
    have h1 : a ≤ k := hl a (by simp)
    exact ih (max a m) (by omega) (fun l h' => hl l (by simp [h']))

theorem sizesLoop_ok {data : List Byte} (ls : List Nat) : ∀ (b m : Nat) (acc : List Byte) (s : Bs) (rest : List Bool), b < 20 → (∀ l ∈ ls, l < 20) →
    acc.length + ls.length ≤ 258 → At data s (lengthsBits b ls ++ rest) →
    ∃ s', sizesLoop data ls.length b m acc s = .ok (acc ++ ls.map (BitVec.ofNat 8), largestOf m ls, s') ∧ At data s' rest := by
  induction ls with
  | nil => intro b m acc s rest _ _ _ h; exact ⟨s, by simp [sizesLoop, largestOf], h⟩
  | cons l ls ih =>
    intro b m acc s rest hb hl hn h
    have hl20 := hl l (by simp)
    simp only [List.length_cons] at hn
    unfold lengthsBits at h
    rw [List.append_assoc] at h
    obtain ⟨s1, e1, h1⟩ := readSize_ok hb hl20 h
    obtain ⟨s2, e2, h2⟩ := ih l (max l m) (acc ++ [BitVec.ofNat 8 l]) s1 rest hl20 (fun x hx => hl x (by simp [hx])) (by simp; omega) h1
    refine ⟨s2, ?_, h2⟩
    rw [List.length_cons]
    unfold sizesLoop
    rw [e1, R.ok_bind]
    simp only
    rw [R.check_true (by omega), R.ok_bind, e2]
    simp [largestOf]

theorem sizesLoop_err {data : List Byte} (ls : List Nat) : ∀ (b m : Nat) (acc : List Byte) (s : Bs) (rest : List Bool), b < 20 → (∀ l ∈ ls, l ≤ 20) → 20 ∈ ls →
    acc.length + ls.length ≤ 258 → At data s (lengthsBits b ls ++ rest) → sizesLoop data ls.length b m acc s = .err := by
  induction ls with
  | nil => intro b m acc s rest _ _ h; simp at h
  | cons l ls ih =>
    intro b m acc s rest hb hl h20 hn h
    simp only [List.length_cons] at hn
    unfold lengthsBits at h
    rw [List.append_assoc] at h
    rw [List.length_cons]
    unfold sizesLoop
    by_cases hl20 : l = 20
    · subst hl20
      rw [readSize_err hb h, R.err_bind]
    · have := hl l (by simp)
      obtain ⟨s1, e1, h1⟩ := readSize_ok hb (by omega) h
      rw [e1, R.ok_bind]
      simp only
      rw [R.check_true (by omega), R.ok_bind]
      exact ih l (max l m) (acc ++ [BitVec.ofNat 8 l]) s1 rest (by omega) (fun x hx => hl x (by simp [hx])) (by simpa [Ne.symm hl20] using h20) (by simp; omega) h1

theorem lens_bytes {ls : List Nat} (h : ∀ l ∈ ls, l < 256) : lens (ls.map (BitVec.ofNat 8)) = ls := by
  unfold lens
  rw [List.map_map]
  conv_rhs => rw [← List.map_id ls]
  apply List.map_congr_left
  intro l hl
  have := h l hl
  simp only [Function.comp, BitVec.toNat_ofNat, id]
  omega

theorem checkLoop_eq (L : Nat) (hL : L < 32) (ls : List Nat) : ∀ v, (∀ l ∈ ls, l ≤ L) →
    checkLoop L (ls.map (BitVec.ofNat 8)) v = if (ls.map fun l => 2 ^ (L - l)).sum ≤ v then .ok (v - (ls.map fun l => 2 ^ (L - l)).sum) else .panic := by
  induction ls with
  | nil => intro v _; simp [checkLoop]
  | cons l ls ih =>
    intro v h
    have hl := h l (by simp)
    have hn : (BitVec.ofNat 8 l).toNat = l := by rw [BitVec.toNat_ofNat]; omega
    rw [List.map_cons]
    unfold checkLoop
    rw [hn, R.subU_ok hl, R.ok_bind, R.check_true (by omega), R.ok_bind, List.map_cons, List.sum_cons]
    by_cases hv : 2 ^ (L - l) ≤ v
    · rw [R.subU_ok hv, R.ok_bind, ih _ (fun x hx => h x (by simp [hx]))]
      by_cases h2 : 2 ^ (L - l) + (ls.map fun l => 2 ^ (L - l)).sum ≤ v
      · rw [if_pos h2, if_pos (by omega)]
        congr 1
        omega
      · rw [if_neg h2, if_neg (by omega)]
    · rw [if_neg (by omega), R.subU, if_neg hv, R.panic_bind]

/-- The sum of the parts in another unit. -/
theorem parts_scale {L m : Nat} (hL : L ≤ m) (ls : List Nat) (h : ∀ l ∈ ls, l ≤ L) :
    (ls.map fun l => 2 ^ (m - l)).sum = 2 ^ (m - L) * (ls.map fun l => 2 ^ (L - l)).sum := by
  induction ls with
  | nil => simp
  | cons l ls ih =>
    have hl := h l (by simp)
    rw [List.map_cons, List.sum_cons, List.map_cons, List.sum_cons, ih (fun x hx => h x (by simp [hx])), Nat.mul_add]
    congr 1
    rw [← Nat.pow_add]
    congr 1
    omega

/-- The parts, from the code sizes that were read on. -/
theorem readTree_parts {data : List Byte} {number start : Nat} {ls : List Nat} (hn : ls.length = number) (h258 : number ≤ 258) (hs : start < 20) (hl : ∀ l ∈ ls, l < 20)
    {s : Bs} {rest : List Bool} (h : At data s (treeBits (start, ls) ++ rest)) :
    ∃ s', At data s' rest ∧ readTree data number s =
      (if (ls.map fun l => 2 ^ (largestOf start ls - l)).sum ≤ 2 ^ largestOf start ls then
          R.ok (2 ^ largestOf start ls - (ls.map fun l => 2 ^ (largestOf start ls - l)).sum) else .panic) >>= fun value =>
        R.require (value = 0) >>= fun _ => Huffman.build (Huffman.new number 20) (ls.map (BitVec.ofNat 8)) >>= fun tree => .ok (tree, s') := by
  subst hn
  unfold treeBits at h
  rw [List.append_assoc] at h
  obtain ⟨s1, e1, h1⟩ := getValue_ok (want := 5) (by omega) h (by simp only; omega)
  obtain ⟨s2, e2, h2⟩ := sizesLoop_ok ls start start [] s1 rest hs hl (by simpa using h258) h1
  have hle := largestOf_le (k := 19) ls start (by omega) (fun l h => by have := hl l h; omega)
  refine ⟨s2, h2, ?_⟩
  unfold readTree
  rw [e1, R.ok_bind]
  simp only
  rw [e2, R.ok_bind]
  simp only [List.nil_append]
  rw [R.require_true (by omega), R.ok_bind, R.check_true (by omega), R.ok_bind, checkLoop_eq _ (by omega) ls _ (largestOf_ge ls start).2]
  rfl

theorem readTree_ok {data : List Byte} {number start : Nat} {ls : List Nat} (h258 : number ≤ 258) (h1 : 1 ≤ number) (hs : start ≤ 19) (hc : Complete 19 number ls)
    {s : Bs} {rest : List Bool} (h : At data s (treeBits (start, ls) ++ rest)) :
    ∃ t s', readTree data number s = .ok (t, s') ∧ IsTree t ls ∧ At data s' rest := by
  obtain ⟨hn, hl, hk⟩ := hc
  obtain ⟨s', h', e⟩ := readTree_parts hn h258 (by omega) (fun l h => by have := hl l h; omega) h
  have hle := largestOf_le (k := 19) ls start hs (fun l h => (hl l h).2)
  have hg := (largestOf_ge ls start).2
  have hsum : (ls.map fun l => 2 ^ (largestOf start ls - l)).sum = 2 ^ largestOf start ls := by
    rw [parts_scale hle ls hg] at hk
    apply Nat.eq_of_mul_eq_mul_left (Nat.two_pow_pos (19 - largestOf start ls))
    rw [hk, ← Nat.pow_add]
    congr 1
    omega
  rw [hsum, if_pos (Nat.le_refl _), R.ok_bind, Nat.sub_self] at e
  simp only at e
  rw [R.require_true trivial, R.ok_bind] at e
  have hlens : lens (ls.map (BitVec.ofNat 8)) = ls := lens_bytes fun l h => by have := hl l h; omega
  obtain ⟨t, b1, -, -, b2⟩ := build_ok (Huffman.new number 20) (ls.map (BitVec.ofNat 8)) (by simp; omega) (by simp [Huffman.new]; omega) (by
    rw [hlens]
    refine ⟨fun l h => by have := hl l h; simp only [Huffman.new]; omega, ?_, ?_⟩
    · cases ls with
      | nil => simp at hn; omega
      | cons a ls => exact ⟨a, by simp, by have := hl a (by simp); omega⟩
    · unfold Kraft
      simp only [Huffman.new]
      rw [List.filter_eq_self.2 (fun l h => by have := hl l h; simp; omega), parts_scale (L := 19) (by omega) ls (fun l h => (hl l h).2), hk, ← Nat.pow_add])
  rw [b1, R.ok_bind] at e
  rw [hlens] at b2
  exact ⟨t, s', e, b2, h'⟩

/-- A code that is over-subscribed makes the check of the codes overflow. -/
theorem readTree_panic {data : List Byte} {number start : Nat} {ls : List Nat} (h258 : number ≤ 258) (hs : start ≤ 19) (hn : ls.length = number) (hl : ∀ l ∈ ls, l ≤ 19)
    (hk : 2 ^ 19 < (ls.map fun l => 2 ^ (19 - l)).sum) {s : Bs} {rest : List Bool} (h : At data s (treeBits (start, ls) ++ rest)) :
    readTree data number s = .panic := by
  obtain ⟨s', h', e⟩ := readTree_parts hn h258 (by omega) (fun l h => by have := hl l h; omega) h
  have hle := largestOf_le (k := 19) ls start hs hl
  rw [e, if_neg, R.panic_bind]
  intro hc
  rw [parts_scale hle ls (largestOf_ge ls start).2] at hk
  have := Nat.mul_le_mul_left (2 ^ (19 - largestOf start ls)) hc
  rw [← Nat.pow_add, show 19 - largestOf start ls + largestOf start ls = 19 by omega] at this
  omega

/-- A code of 20 bits is not read. -/
theorem readTree_err {data : List Byte} {number start : Nat} {ls : List Nat} (h258 : number ≤ 258) (hs : start ≤ 19) (hn : ls.length = number) (hl : ∀ l ∈ ls, l ≤ 20)
    (h20 : 20 ∈ ls) {s : Bs} {rest : List Bool} (h : At data s (treeBits (start, ls) ++ rest)) : readTree data number s = .err := by
  subst hn
  unfold treeBits at h
  rw [List.append_assoc] at h
  obtain ⟨s1, e1, h1⟩ := getValue_ok (want := 5) (by omega) h (by simp only; omega)
  unfold readTree
  rw [e1, R.ok_bind]
  simp only
  rw [sizesLoop_err ls start start [] s1 rest (by omega) hl h20 (by simpa using h258) h1, R.err_bind]

theorem readTrees_ok {data : List Byte} {number : Nat} (h258 : number ≤ 258) (h1 : 1 ≤ number) (more : Nat) (trees : List (Nat × List Nat)) :
    ∀ (acc : List Huffman.Tree) (s : Bs) (rest : List Bool), (∀ t ∈ trees, t.1 ≤ 19 ∧ Complete 19 number t.2) → At data s (trees.flatMap treeBits ++ rest) →
    ∃ ts s', readTrees data number (trees.length + more) acc s = readTrees data number more (acc ++ ts) s' ∧ List.Forall₂ (fun t l => IsTree t l.2) ts trees ∧ At data s' rest := by
  induction trees with
  | nil => intro acc s rest _ h; exact ⟨[], s, by simp, .nil, h⟩
  | cons t trees ih =>
    intro acc s rest hw h
    rw [List.flatMap_cons, List.append_assoc] at h
    obtain ⟨t', s1, e1, i1, h1'⟩ := readTree_ok h258 h1 (hw t (by simp)).1 (hw t (by simp)).2 h
    obtain ⟨ts, s2, e2, i2, h2⟩ := ih (acc ++ [t']) s1 rest (fun x hx => hw x (by simp [hx])) h1'
    refine ⟨t' :: ts, s2, ?_, .cons i1 i2, h2⟩
    rw [List.length_cons, show trees.length + 1 + more = (trees.length + more) + 1 by omega]
    conv_lhs => unfold readTrees
    rw [e1, R.ok_bind]
    simp only
    rw [e2, List.append_assoc]
    rfl

end Keramics.Bzip2
