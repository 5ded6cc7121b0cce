import Verif.Lemmas.LazyBlocks
import Verif.Lemmas.EqualBlocks
import Verif.Model.SectorBitmap

/-! # Lemmas: sector bitmaps -/

namespace Keramics.SectorBitmap
open Keramics.Spec Keramics.BlockTree Keramics.Lazy

/-- The ranges say of every bit what it is, in order. -/
def Covers (perBit : Nat) : List (Nat × Bool) → List Bool → Prop
  | [], bits => bits = []
  | (size, v) :: rs, bits => ∃ n rest, 0 < n ∧ size = n * perBit ∧ bits = List.replicate n v ++ rest ∧ Covers perBit rs rest

theorem Covers.append {perBit : Nat} {rs rs' : List (Nat × Bool)} {bits bits' : List Bool} (h : Covers perBit rs bits)
    (h' : Covers perBit rs' bits') : Covers perBit (rs ++ rs') (bits ++ bits') := by
  induction rs generalizing bits with
  | nil => rw [show bits = [] from h]; exact h'
  | cons p rs ih =>
    obtain ⟨n, rest, h0, h1, rfl, h2⟩ := h
    exact ⟨n, rest ++ bits', h0, h1, by rw [List.append_assoc], ih h2⟩

theorem fold_covers {perBit : Nat} (bits : List Bool) (s : State) (done : List Bool) (k : Nat) (hd : Covers perBit s.ranges done)
    (hk : s.offset = s.start + k * perBit) (hp : 0 < k ∨ bits.head? = some s.value) :
    let s' := bits.foldl (step perBit) s
    Covers perBit (s'.ranges ++ [(s'.offset - s'.start, s'.value)]) (done ++ List.replicate k s.value ++ bits) := by
  induction bits generalizing s done k with
  | nil =>
    simp only [List.foldl_nil, List.append_nil]
    refine hd.append ⟨k, [], ?_, by omega, by simp, rfl⟩
    rcases hp with h | h
    · exact h
    · cases h
  | cons b bits ih =>
    simp only [List.foldl_cons]
    unfold step
    by_cases hb : b = s.value
    · rw [if_neg (by simpa using hb)]
      have := ih ⟨s.offset + perBit, s.start, s.value, s.ranges⟩ done (k + 1) hd (by simp only [Nat.succ_mul]; omega) (Or.inl (by omega))
      rw [List.replicate_succ', hb] at *
      simp only [List.append_assoc, List.singleton_append] at this ⊢
      exact this
    · rw [if_pos hb]
      have hk0 : 0 < k := by
        rcases hp with h | h
        · exact h
        · simp at h; exact absurd h hb
      have := ih ⟨s.offset + perBit, s.offset, b, s.ranges ++ [(s.offset - s.start, s.value)]⟩ (done ++ List.replicate k s.value) 1
        (hd.append ⟨k, [], hk0, by omega, by simp, rfl⟩) (by simp) (Or.inl (by omega))
      simp only [List.replicate_one, List.append_assoc, List.singleton_append] at this ⊢
      exact this

theorem ranges_covers {perBit : Nat} {initial : Bool} {bits : List Bool} (h : bits.head? = some initial) :
    Covers perBit (ranges perBit initial bits) bits := by
  have := fold_covers bits ⟨0, 0, initial, []⟩ [] 0 (perBit := perBit) rfl (by simp) (Or.inr h)
  simpa [ranges] using this

/-- A bitmap of one value is one range. -/
theorem ranges_replicate {perBit n : Nat} (v : Bool) : ranges perBit v (List.replicate n v) = [(n * perBit, v)] := by
  have : ∀ (o : Nat), (List.replicate n v).foldl (step perBit) ⟨o, 0, v, []⟩ = ⟨o + n * perBit, 0, v, []⟩ := by
    induction n with
    | zero => intro o; simp
    | succ n ih =>
      intro o
      have hs : step perBit ⟨o, 0, v, []⟩ v = ⟨o + perBit, 0, v, []⟩ := by unfold step; rw [if_neg (by simp)]
      rw [List.replicate_succ, List.foldl_cons, hs, ih, Nat.succ_mul]
      congr 1
      omega
  unfold ranges
  rw [this]
  simp

theorem fold_replicate {perBit n : Nat} (v : Bool) (o st : Nat) (l : List (Nat × Bool)) :
    (List.replicate n v).foldl (step perBit) ⟨o, st, v, l⟩ = ⟨o + n * perBit, st, v, l⟩ := by
  induction n generalizing o with
  | zero => simp
  | succ n ih =>
    have hs : step perBit ⟨o, st, v, l⟩ v = ⟨o + perBit, st, v, l⟩ := by unfold step; rw [if_neg (by simp)]
    rw [List.replicate_succ, List.foldl_cons, hs, ih, Nat.succ_mul]
    congr 1
    omega

theorem fold_shift {perBit a : Nat} (bits : List Bool) (l : List (Nat × Bool)) (s : State) :
    bits.foldl (step perBit) ⟨s.offset + a, s.start + a, s.value, l ++ s.ranges⟩ =
      let t := bits.foldl (step perBit) s
      ⟨t.offset + a, t.start + a, t.value, l ++ t.ranges⟩ := by
  induction bits generalizing s with
  | nil => rfl
  | cons b bits ih =>
    rw [List.foldl_cons, List.foldl_cons, ← ih]
    congr 1
    unfold step
    simp only
    split
    · simp only [State.mk.injEq, List.append_assoc, true_and, and_true]
      refine ⟨by omega, ?_⟩
      congr 4
      omega
    · simp only [State.mk.injEq, and_true]
      omega

/-- The first range of a bitmap. -/
theorem ranges_next {perBit n : Nat} (v : Bool) (rest : List Bool) :
    ranges perBit v (List.replicate n v ++ (!v) :: rest) = (n * perBit, v) :: ranges perBit (!v) ((!v) :: rest) := by
  unfold ranges
  simp only
  rw [List.foldl_append, fold_replicate, List.foldl_cons, List.foldl_cons]
  have h1 : step perBit ⟨0 + n * perBit, 0, v, []⟩ (!v) = ⟨perBit + n * perBit, 0 + n * perBit, !v, [(n * perBit, v)] ++ []⟩ := by
    unfold step
    rw [if_pos (by cases v <;> simp)]
    simp only [State.mk.injEq, true_and]
    refine ⟨by omega, ?_⟩
    simp
  have h2 : step perBit ⟨0, 0, !v, []⟩ (!v) = ⟨perBit, 0, !v, []⟩ := by
    unfold step
    rw [if_neg (by simp)]
    simp
  rw [h1, h2]
  have := fold_shift (perBit := perBit) (a := n * perBit) rest [(n * perBit, v)] ⟨perBit, 0, !v, []⟩
  simp only at this
  rw [this]
  simp only [List.cons_append, List.nil_append, List.cons.injEq, true_and]
  congr 3
  omega

theorem byteBits_length (b : Byte) : (byteBits b).length = 8 := by simp [byteBits]

theorem bits_length (data : List Byte) : (bits data).length = 8 * data.length := by
  induction data with
  | nil => rfl
  | cons b data ih =>
    unfold bits at *
    rw [List.flatMap_cons, List.length_append, ih, byteBits_length, List.length_cons]
    omega

theorem bits_get {data : List Byte} {i : Nat} (h : i < 8 * data.length) :
    (bits data)[i]? = some ((data.getD (i / 8) 0#8).getLsbD (i % 8)) := by
  induction data generalizing i with
  | nil => simp at h
  | cons b data ih =>
    unfold bits at *
    rw [List.flatMap_cons]
    rcases Nat.lt_or_ge i 8 with h8 | h8
    · rw [List.getElem?_append_left (by rw [byteBits_length]; exact h8), Nat.div_eq_of_lt h8, Nat.mod_eq_of_lt h8]
      simp [byteBits, List.getElem?_range h8]
    · rw [List.getElem?_append_right (by rw [byteBits_length]; exact h8), byteBits_length, ih (by simp at h; omega)]
      obtain ⟨j, rfl⟩ : ∃ j, i = j + 8 := ⟨i - 8, by omega⟩
      rw [Nat.add_sub_cancel, Nat.add_div_right _ (by omega), Nat.add_mod_right, List.getD_cons_succ]

/-- Insert the ranges of one block into a tree whose ranges are right. `l` is the size of a sector, `p` the number of
sectors of a block, `j` the number of the sector the ranges start at. -/
theorem insertRanges_sound {source : Nat → Source} {total l p base dataBase : Nat} {unset : Kind} (hl : 0 < l) (hp : 2 ≤ p)
    (hbase : l * p ∣ base) (hunset : unset = .sparse ∨ unset = .inParent) {all : List Bool} (hlen : all.length = p)
    (hsrc : ∀ y i, base + i * l ≤ y → y < base + i * l + l → y < total → ∀ b, all[i]? = some b →
      source y = if b then .file (dataBase + (y - base)) else if unset = .sparse then .zero else .parent)
    (h64 : dataBase + l * p < 2 ^ 64)
    (rs : List (Nat × Bool)) (j : Nat) (hj : j ≤ p) (hcov : Covers l rs (all.drop j)) (t t' : Lazy.Tree) (hpn : t.perNode = p) (hlf : t.leafSize = l)
    (ht : TreeRight source total t) (h : insertRanges unset rs (base + j * l) (dataBase + j * l) t = .ok t') :
    t'.perNode = p ∧ t'.leafSize = l ∧ TreeRight source total t' := by
  induction rs generalizing j t with
  | nil =>
    rw [insertRanges, R.ok.injEq] at h
    subst h; exact ⟨hpn, hlf, ht⟩
  | cons q rs ih =>
    obtain ⟨size, v⟩ := q
    obtain ⟨n, rest, hn, rfl, hall, hcov'⟩ := hcov
    obtain ⟨old, hh, hd, hr⟩ := ht
    rw [insertRanges] at h
    obtain ⟨t1, h1, h⟩ := R.bind_eq_ok.1 h
    obtain ⟨m1, h2, h⟩ := R.bind_eq_ok.1 h
    obtain ⟨-, rfl⟩ := addU_eq_ok.1 h2
    obtain ⟨m2, h3, h⟩ := R.bind_eq_ok.1 h
    obtain ⟨-, rfl⟩ := addU_eq_ok.1 h3
    have hcount : j + n ≤ p := by
      have := congrArg List.length hall
      rw [List.length_drop, List.length_append, List.length_replicate, hlen] at this
      omega
    have hjn : j * l + n * l ≤ l * p := by
      rw [← Nat.add_mul, Nat.mul_comm]; exact Nat.mul_le_mul_left _ hcount
    have hal : Aligned t.perNode t.leafSize (base + j * l) (n * l) := by
      rw [hpn, hlf]
      intro k hk hle
      rw [Nat.mul_comm n l] at hle
      have hle' : p ^ k ≤ n := Nat.le_of_mul_le_mul_left hle hl
      rcases Nat.lt_or_ge k 1 with hk1 | hk1
      · have : k = 0 := by omega
        subst this
        rw [Nat.pow_zero, Nat.mul_one]
        exact Nat.dvd_add (Nat.dvd_trans (Nat.dvd_mul_right _ _) hbase) (Nat.dvd_mul_left _ _)
      · have hpk : p ^ 1 ≤ p ^ k := Nat.pow_le_pow_right (by omega) hk1
        rw [Nat.pow_one] at hpk
        have hj0 : j = 0 := by omega
        have hnp : n = p := by omega
        have hk' : k = 1 := by
          rcases Nat.lt_or_ge k 2 with h | h
          · omega
          · have h' : p ^ 1 < p ^ k := Nat.pow_lt_pow_right (by omega) h
            rw [Nat.pow_one] at h'
            omega
        subst hj0 hk'
        rw [Nat.pow_one, Nat.zero_mul, Nat.add_zero]
        exact hbase
    obtain ⟨hh', d1, d2, d3⟩ := insert_sound hh (Nat.mul_pos hn hl) hal h1
    have hbit : ∀ i, i < n → all[j + i]? = some v := by
      intro i hi
      rw [← List.getElem?_drop, hall, List.getElem?_append_left (by simpa using hi), List.getElem?_replicate, if_pos hi]
    have hright : Right source total ⟨base + j * l, n * l, if v = true then ⟨base + j * l, dataBase + j * l, n * l, .inFile⟩ else ⟨base + j * l, 0, n * l, unset⟩⟩ := by
      refine ⟨?_, ?_, ?_, ?_, ?_⟩
      · cases v <;> rfl
      · cases v <;> rfl
      · cases v
        · simp only [Bool.false_eq_true, if_false]
          rcases hunset with h | h <;> rw [h] <;> simp
        · simp
      · cases v
        · simp only [Bool.false_eq_true, if_false]
          intro h
          rcases hunset with h' | h' <;> rw [h'] at h <;> cases h
        · intro _
          show dataBase + j * l + n * l < 2 ^ 64
          omega
      · rintro y ⟨hy1, hy2⟩ hyt
        simp only at hy1 hy2
        have e1 := Nat.div_add_mod (y - base - j * l) l
        have e2 := Nat.mod_lt (y - base - j * l) hl
        have e3 : (y - base - j * l) / l < n := by
          rw [Nat.div_lt_iff_lt_mul hl]; omega
        have e4 : (j + (y - base - j * l) / l) * l = j * l + l * ((y - base - j * l) / l) := by
          rw [Nat.add_mul, Nat.mul_comm ((y - base - j * l) / l)]
        have := hsrc y (j + (y - base - j * l) / l) (by omega) (by omega) hyt v (hbit _ e3)
        rw [this]
        unfold sourceOf
        cases v
        · simp only [Bool.false_eq_true, if_false]
          rcases hunset with h' | h' <;> rw [h'] <;> simp
        · simp only [if_true]
          congr 1
          omega
    have key := ih (j + n) hcount (by
      have hdrop : all.drop (j + n) = rest := by
        rw [← List.drop_drop, hall, List.drop_left' (by simp)]
      rw [hdrop]; exact hcov') t1 (by rw [d2, hpn]) (by rw [d3, hlf])
      ⟨_, hh', by omega, fun r hm => by
        rcases List.mem_append.1 hm with hm | hm
        · exact hr r hm
        · rw [List.mem_singleton.1 hm]; exact hright⟩
    rw [Nat.add_mul, ← Nat.add_assoc, ← Nat.add_assoc] at key
    exact key h

end Keramics.SectorBitmap
