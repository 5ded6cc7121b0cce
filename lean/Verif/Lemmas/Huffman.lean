import Verif.Base.Tactics
import Verif.Base.Sat
import Verif.Base.Bits
import Verif.Model.Huffman
import Verif.Spec.Huffman

/-! # Canonical Huffman codes: the tree built is the one the lengths describe -/

namespace Keramics.Huffman
open Keramics.Spec.Huffman

def lens (sizes : List Byte) : List Nat := sizes.map (·.toNat)

theorem lens_length (sizes : List Byte) : (lens sizes).length = sizes.length := by simp [lens]

theorem get_map_range {α} (f : Nat → α) {n i : Nat} (h : i < n) :
    R.get ((List.range n).map f) i = .ok (f i) := by
  rw [R.get_ok (by simpa using h)]; simp

/-! ## Counting -/

theorem countSizes_eq (m : Nat) (sizes : List Byte) (f : Nat → Nat) :
    countSizes m sizes ((List.range (m + 1)).map f) =
      if ∀ l ∈ lens sizes, l ≤ m then
        .ok ((List.range (m + 1)).map fun l => f l + (lens sizes).count l)
      else .err := by
  induction sizes generalizing f with
  | nil => simp [countSizes, lens]
  | cons a sizes ih =>
    unfold countSizes
    by_cases h : a.toNat ≤ m
    · rw [R.require_true h, R.ok_bind, get_map_range f (by omega), R.ok_bind,
        R.set_ok (by simp; omega), R.ok_bind]
      have e : ((List.range (m + 1)).map f).set a.toNat (f a.toNat + 1)
          = (List.range (m + 1)).map fun l => if l = a.toNat then f l + 1 else f l := by
        apply List.ext_getElem (by simp)
        intro i h1 h2
        simp only [List.getElem_set, List.getElem_map, List.getElem_range]
        by_cases hi : a.toNat = i
        · simp [hi]
        · rw [if_neg hi, if_neg (fun h => hi h.symm)]
      rw [e, ih]
      have e2 : (∀ l ∈ lens (a :: sizes), l ≤ m) ↔ ∀ l ∈ lens sizes, l ≤ m := by
        simp [lens, h]
      simp only [e2]
      split
      · congr 2
        funext l
        simp only [lens, List.map_cons, List.count_cons, beq_iff_eq]
        by_cases hl : l = a.toNat
        · simp [hl]; omega
        · rw [if_neg hl, if_neg (fun h => hl h.symm)]; omega
      · rfl
    · rw [R.require_false h, R.err_bind, if_neg]
      intro hall
      exact h (hall a.toNat (by simp [lens]))

/-! ## Over-subscription -/

/-- All codes of at most `l` bits, in units of `2 ^ (-l)`. -/
def used (ls : List Nat) (l : Nat) : Nat := first ls l + count ls l

theorem first_succ (ls : List Nat) (l : Nat) : first ls (l + 1) = 2 * used ls l := rfl

theorem used_cons (a : Nat) (ls : List Nat) (m : Nat) :
    used (a :: ls) m = used ls m + (if 0 < a ∧ a ≤ m then 2 ^ (m - a) else 0) := by
  induction m with
  | zero =>
    rw [if_neg (by omega)]
    simp [used, first, count]
  | succ m ih =>
    rw [used, used, first_succ, first_succ, ih]
    simp only [count, Nat.add_eq_zero_iff, Nat.one_ne_zero, and_false, if_false, List.count_cons, beq_iff_eq]
    by_cases h1 : a = m + 1
    · subst h1
      simp; omega
    · rw [if_neg h1]
      by_cases h2 : 0 < a ∧ a ≤ m
      · rw [if_pos h2, if_pos (by omega), show m + 1 - a = (m - a) + 1 by omega, Nat.pow_succ]
        omega
      · rw [if_neg h2, if_neg (by omega)]
        omega

theorem kraft_used (m : Nat) (ls : List Nat) (h : ∀ l ∈ ls, l ≤ m) : Kraft m ls ↔ used ls m ≤ 2 ^ m := by
  have : ((ls.filter (0 < ·)).map fun l => 2 ^ (m - l)).sum = used ls m := by
    induction ls with
    | nil =>
      have h0 : ∀ m, used [] m = 0 := by
        intro m
        induction m with
        | zero => simp [used, first, count]
        | succ m ih => rw [used, first_succ, ih]; simp [count]
      rw [h0]; rfl
    | cons a ls ih =>
      have ha := h a (by simp)
      rw [used_cons, ← ih (fun l hl => h l (by simp [hl]))]
      by_cases h0 : 0 < a
      · rw [if_pos ⟨h0, ha⟩]; simp [h0]; omega
      · rw [if_neg (by omega)]; simp [h0]
  unfold Kraft
  rw [this]

theorem used_mono (ls : List Nat) (l k : Nat) : used ls l * 2 ^ k ≤ used ls (l + k) := by
  induction k with
  | zero => simp
  | succ k ih =>
    have : used ls (l + (k + 1)) = 2 * used ls (l + k) + count ls (l + (k + 1)) := rfl
    rw [this, Nat.pow_succ, ← Nat.mul_assoc]
    omega

theorem used_le {ls : List Nat} {m l : Nat} (h : used ls m ≤ 2 ^ m) (hl : l ≤ m) : used ls l ≤ 2 ^ l := by
  have h1 := used_mono ls l (m - l)
  rw [show l + (m - l) = m by omega] at h1
  have h2 : (2 : Nat) ^ m = 2 ^ l * 2 ^ (m - l) := by rw [← Nat.pow_add]; congr 1; omega
  rw [h2] at h
  exact Nat.le_of_mul_le_mul_right (Nat.le_trans h1 h) (Nat.two_pow_pos _)

/-- The table of counts the code keeps; index 0 counts the symbols without code. -/
def table (m : Nat) (ls : List Nat) : List Nat := (List.range (m + 1)).map fun l => ls.count l

theorem get_table {m l : Nat} (ls : List Nat) (h : l ≤ m) : R.get (table m ls) l = .ok (ls.count l) :=
  get_map_range _ (by omega)

theorem checkLeft_eq (m : Nat) (ls : List Nat) (l k : Nat) (hk : l + k = m) :
    checkLeft (table m ls) (List.range' (l + 1) k) ((2 : Int) ^ l - used ls l) =
      if l = m ∨ used ls m ≤ 2 ^ m then .ok () else .err := by
  induction k generalizing l with
  | zero =>
    rw [if_pos (Or.inl (by omega))]; rfl
  | succ k ih =>
    rw [List.range'_succ]
    unfold checkLeft
    rw [get_table ls (by omega), R.ok_bind]
    simp only
    have e : 2 * ((2 : Int) ^ l - used ls l) - (ls.count (l + 1) : Nat) = 2 ^ (l + 1) - used ls (l + 1) := by
      rw [show used ls (l + 1) = 2 * used ls l + count ls (l + 1) from rfl]
      simp only [count, Nat.add_eq_zero_iff, Nat.one_ne_zero, and_false, if_false]
      push_cast
      rw [pow_succ]
      ring
    rw [e]
    have e3 : (0 ≤ (2 : Int) ^ (l + 1) - used ls (l + 1)) ↔ used ls (l + 1) ≤ 2 ^ (l + 1) := by
      have : ((2 ^ (l + 1) : Nat) : Int) = (2 : Int) ^ (l + 1) := by push_cast; rfl
      rw [← this]
      omega
    by_cases h : used ls (l + 1) ≤ 2 ^ (l + 1)
    · rw [R.require_true (e3.mpr h), R.ok_bind, ih (l + 1) (by omega)]
      have e2 : (l + 1 = m ∨ used ls m ≤ 2 ^ m) ↔ (l = m ∨ used ls m ≤ 2 ^ m) := by
        constructor
        · rintro (hh | hh)
          · rw [← hh]; exact Or.inr h
          · exact Or.inr hh
        · rintro (hh | hh)
          · omega
          · exact Or.inr hh
      simp only [e2]
    · rw [R.require_false (fun hh => h (e3.mp hh)), R.err_bind, if_neg]
      rintro (hh | hh)
      · omega
      · exact h (used_le hh (by omega))

/-! ## Sorting the symbols -/

/-- The number of codes shorter than `l`. -/
def idx (ls : List Nat) : Nat → Nat
  | 0 => 0
  | l + 1 => idx ls l + count ls l

theorem idx_cons (a : Nat) (ls : List Nat) (m : Nat) :
    idx (a :: ls) m = idx ls m + (if 0 < a ∧ a < m then 1 else 0) := by
  induction m with
  | zero => simp [idx]
  | succ m ih =>
    rw [idx, idx, ih]
    unfold count
    by_cases hm : m = 0
    · subst hm
      simp only [if_true, Nat.add_zero]
      rw [if_neg (by omega), if_neg (by omega)]
    · rw [if_neg hm, if_neg hm, List.count_cons]
      simp only [beq_iff_eq]
      by_cases h1 : a = m
      · subst h1
        rw [if_neg (by omega), if_pos rfl, if_pos (by omega)]; omega
      · rw [if_neg h1]
        by_cases h2 : 0 < a ∧ a < m
        · rw [if_pos h2, if_pos (by omega)]; omega
        · rw [if_neg h2, if_neg (by omega)]; omega

theorem idx_le_length (ls : List Nat) (m : Nat) : idx ls m ≤ ls.length := by
  induction ls with
  | nil =>
    induction m with
    | zero => simp [idx]
    | succ m ih => rw [idx]; simp [count] at *; omega
  | cons a ls ih =>
    rw [idx_cons, List.length_cons]
    split <;> omega

theorem idx_mono (ls : List Nat) {a b : Nat} (h : a ≤ b) : idx ls a ≤ idx ls b := by
  induction b with
  | zero => rw [show a = 0 by omega]
  | succ b ih =>
    rw [idx]
    by_cases hb : a = b + 1
    · subst hb; rw [idx]
    · have := ih (by omega); omega

/-- The place of a symbol in the sorted list. -/
def pos (ls : List Nat) (s : Nat) : Nat :=
  idx ls (ls.getD s 0) + (ls.take s).count (ls.getD s 0)

theorem offsets_eq (m : Nat) (ls : List Nat) (i k : Nat) (hi : 1 ≤ i) (hk : i + k ≤ m + 1) :
    offsets (table m ls) (List.range' i k) ((List.range (i + 1)).map (idx ls)) =
      .ok ((List.range (i + 1 + k)).map (idx ls)) := by
  induction k generalizing i with
  | zero => simp [offsets]
  | succ k ih =>
    rw [List.range'_succ]
    unfold offsets
    rw [get_map_range _ (by omega), R.ok_bind, get_table ls (by omega), R.ok_bind]
    have : List.map (idx ls) (List.range (i + 1)) ++ [idx ls i + ls.count i]
        = (List.range (i + 1 + 1)).map (idx ls) := by
      rw [List.range_succ (n := i + 1), List.map_append]
      simp only [List.map_cons, List.map_nil]
      rw [show idx ls (i + 1) = idx ls i + count ls i from rfl]
      simp [count, show i ≠ 0 by omega]
    rw [this, ih (i + 1) (by omega) (by omega)]
    congr 3
    omega

theorem count_take_lt {ls : List Nat} {s : Nat} (hs : s < ls.length) :
    (ls.take s).count ls[s] < ls.count ls[s] := by
  have h : ∀ a, ls.count a = (ls.take s).count a + (ls.drop s).count a := by
    intro a
    rw [← List.count_append, List.take_append_drop]
  rw [h, List.drop_eq_getElem_cons hs, List.count_cons_self]
  omega

theorem count_take_lt' {ls : List Nat} {s t : Nat} (hs : s < ls.length) (hst : s < t) :
    (ls.take s).count ls[s] < (ls.take t).count ls[s] := by
  by_cases ht : t ≤ ls.length
  · have h1 := count_take_lt (ls := ls.take t) (s := s) (by simp; omega)
    rw [List.getElem_take, List.take_take] at h1
    rwa [show min s t = s by omega] at h1
  · rw [List.take_of_length_le (by omega : ls.length ≤ t)]
    exact count_take_lt hs

theorem pos_lt {ls : List Nat} {s : Nat} (h : Coded ls s) : pos ls s < idx ls (ls.getD s 0 + 1) := by
  unfold Coded at h
  have hs : s < ls.length := by
    by_contra hc
    rw [List.getD_eq_getElem?_getD, List.getElem?_eq_none (by omega)] at h
    simp at h
  have e : ls.getD s 0 = ls[s] := by simp [List.getD_eq_getElem?_getD, hs]
  unfold pos
  rw [e] at h ⊢
  have := count_take_lt hs
  rw [idx]
  unfold count
  rw [if_neg (by omega)]
  omega

theorem coded_lt {ls : List Nat} {s : Nat} (h : Coded ls s) : s < ls.length := by
  unfold Coded at h
  by_contra hc
  rw [List.getD_eq_getElem?_getD, List.getElem?_eq_none (by omega)] at h
  simp at h

theorem pos_inj {ls : List Nat} {s t : Nat} (hs : Coded ls s) (ht : Coded ls t) (hst : s < t) :
    pos ls s ≠ pos ls t := by
  intro h
  have h1 := pos_lt hs
  have h2 := pos_lt ht
  have ls1 := coded_lt hs
  have e : ls.getD s 0 = ls[s] := by simp [List.getD_eq_getElem?_getD, ls1]
  rcases Nat.lt_trichotomy (ls.getD s 0) (ls.getD t 0) with hl | hl | hl
  · have := idx_mono ls (a := ls.getD s 0 + 1) (b := ls.getD t 0) hl
    have : idx ls (ls.getD t 0) ≤ pos ls t := Nat.le_add_right _ _
    omega
  · have h3 := count_take_lt' (t := t) ls1 hst
    unfold pos at h
    rw [← hl, e] at h
    omega
  · have := idx_mono ls (a := ls.getD t 0 + 1) (b := ls.getD s 0) hl
    have : idx ls (ls.getD s 0) ≤ pos ls s := Nat.le_add_right _ _
    omega

/-- The symbols with a code stand at their places. -/
def Sorted (ls symbols : List Nat) : Prop := ∀ s, Coded ls s → symbols[pos ls s]? = some s

theorem place_ok (sizes : List Byte) (N : Nat) (hN : ∀ l ∈ lens sizes, l < N) (done rest : List Byte)
    (hd : sizes = done ++ rest) (symbols : List Nat) (hlen : sizes.length ≤ symbols.length)
    (hinv : ∀ s, s < done.length → Coded (lens sizes) s → symbols[pos (lens sizes) s]? = some s) :
    ∃ symbols', place sizes.length rest done.length
        ((List.range N).map fun l => idx (lens sizes) l + (if l = 0 then 0 else (lens done).count l)) symbols
        = .ok symbols' ∧ symbols'.length = symbols.length ∧ Sorted (lens sizes) symbols' := by
  induction rest generalizing done symbols with
  | nil =>
    refine ⟨symbols, rfl, rfl, fun s hs => hinv s ?_ hs⟩
    have := coded_lt hs
    rw [lens_length, hd] at this
    simpa using this
  | cons a rest ih =>
    have hdone : sizes = (done ++ [a]) ++ rest := by rw [hd]; simp
    have ha : (lens sizes).getD done.length 0 = a.toNat := by
      rw [hd]; simp [lens, List.getD_eq_getElem?_getD]
    have htake : (lens sizes).take done.length = lens done := by
      rw [hd]; simp [lens]
    have haN : a.toNat < N := hN _ (by rw [hd]; simp [lens])
    unfold place
    by_cases h : a.toNat > 0
    · rw [if_pos h]
      have hc : Coded (lens sizes) done.length := by unfold Coded; rw [ha]; exact h
      have hp : pos (lens sizes) done.length = idx (lens sizes) a.toNat + (lens done).count a.toNat := by
        unfold pos; rw [ha, htake]
      have hplt := pos_lt hc
      have := idx_le_length (lens sizes) ((lens sizes).getD done.length 0 + 1)
      rw [lens_length] at this
      rw [get_map_range _ haN, R.ok_bind, if_neg (by omega), ← hp, R.require_true (by omega), R.ok_bind,
        R.set_ok (by simp; omega), R.ok_bind, R.set_ok (by omega), R.ok_bind]
      have e : ((List.range N).map fun l => idx (lens sizes) l + (if l = 0 then 0 else (lens done).count l)).set
          a.toNat (pos (lens sizes) done.length + 1)
          = (List.range N).map fun l => idx (lens sizes) l + (if l = 0 then 0 else (lens (done ++ [a])).count l) := by
        apply List.ext_getElem (by simp)
        intro i h1 h2
        simp only [List.getElem_set, List.getElem_map, List.getElem_range]
        by_cases hi : a.toNat = i
        · rw [if_pos hi, hp, ← hi]
          simp [lens, show a.toNat ≠ 0 by omega]
          omega
        · rw [if_neg hi]
          have : (lens (done ++ [a])).count i = (lens done).count i := by
            simp [lens, List.count_append, List.count_cons, hi]
          rw [this]
      rw [e]
      obtain ⟨s', e1, e2, e3⟩ := ih (done ++ [a]) hdone (symbols.set (pos (lens sizes) done.length) done.length)
        (by simpa using hlen) (by
          intro s hs hcs
          by_cases hsd : s = done.length
          · subst hsd
            rw [List.getElem?_set_self (by omega)]
          · have hlt : s < done.length := by simp at hs; omega
            rw [List.getElem?_set_ne (pos_inj hcs hc hlt).symm]
            exact hinv s hlt hcs)
      rw [show (done ++ [a]).length = done.length + 1 by simp] at e1
      exact ⟨s', e1, by simpa using e2, e3⟩
    · rw [if_neg h]
      have h0 : a.toNat = 0 := by omega
      have e : ((List.range N).map fun l => idx (lens sizes) l + (if l = 0 then 0 else (lens done).count l))
          = (List.range N).map fun l => idx (lens sizes) l + (if l = 0 then 0 else (lens (done ++ [a])).count l) := by
        apply List.map_congr_left
        intro i _
        by_cases hi : i = 0
        · simp [hi]
        · have : (lens (done ++ [a])).count i = (lens done).count i := by
            simp [lens, List.count_append, List.count_cons, h0]
            omega
          rw [this]
      rw [e]
      obtain ⟨s', e1, e2, e3⟩ := ih (done ++ [a]) hdone symbols hlen (by
          intro s hs hcs
          by_cases hsd : s = done.length
          · subst hsd
            unfold Coded at hcs
            rw [ha] at hcs
            omega
          · exact hinv s (by simp at hs; omega) hcs)
      rw [show (done ++ [a]).length = done.length + 1 by simp] at e1
      exact ⟨s', e1, e2, e3⟩

/-! ## The tree -/

/-- `t` is the tree of the lengths `ls`. -/
structure IsTree (t : Tree) (ls : List Nat) : Prop where
  counts : t.counts = table t.largest ls
  le : ∀ l ∈ ls, l ≤ t.largest
  kraft : used ls t.largest ≤ 2 ^ t.largest
  sorted : Sorted ls t.symbols

theorem count_zero_eq (ls : List Nat) : ls.count 0 = ls.length ↔ ∀ l ∈ ls, l = 0 := by
  rw [List.count_eq_length]
  exact ⟨fun h l hl => (h l hl).symm, fun h l hl => (h l hl).symm⟩

theorem build_ok (t : Tree) (sizes : List Byte) (h1 : sizes.length ≤ 65535)
    (h2 : sizes.length ≤ t.symbols.length) (hv : Valid t.largest (lens sizes)) :
    ∃ t', build t sizes = .ok t' ∧ t'.largest = t.largest ∧ t'.symbols.length = t.symbols.length ∧
      IsTree t' (lens sizes) := by
  obtain ⟨hle, hex, hk⟩ := hv
  have hu := (kraft_used _ _ hle).mp hk
  have hm : 1 ≤ t.largest := by
    obtain ⟨l, hl, h0⟩ := hex
    have := hle l hl
    omega
  have hc := countSizes_eq t.largest sizes (fun _ => 0)
  simp only [Nat.zero_add] at hc
  rw [if_pos hle] at hc
  have hrep : List.replicate (t.largest + 1) 0 = (List.range (t.largest + 1)).map (fun _ => 0) := by
    rw [List.map_const']; simp
  have hcl := checkLeft_eq t.largest (lens sizes) 0 t.largest (by omega)
  rw [if_pos (Or.inr hu)] at hcl
  have hu0 : used (lens sizes) 0 = 0 := by simp [used, first, count]
  rw [hu0] at hcl
  have hoff := offsets_eq t.largest (lens sizes) 1 (t.largest - 1) (by omega) (by omega)
  have h00 : (List.range (1 + 1)).map (idx (lens sizes)) = [0, 0] := by
    simp [List.range_succ, idx, count]
  rw [h00, show 1 + 1 + (t.largest - 1) = t.largest + 1 by omega] at hoff
  obtain ⟨s', e1, e2, e3⟩ := place_ok sizes (t.largest + 1)
    (fun l hl => Nat.lt_succ_of_le (hle l hl)) [] sizes (by simp) t.symbols h2 (by simp)
  have hd0 : ((List.range (t.largest + 1)).map fun l => idx (lens sizes) l +
      (if l = 0 then 0 else (lens []).count l)) = (List.range (t.largest + 1)).map (idx (lens sizes)) := by
    apply List.map_congr_left
    intro i _
    simp [lens]
  rw [hd0, List.length_nil] at e1
  refine ⟨{ t with counts := table t.largest (lens sizes), symbols := s' }, ?_, rfl, e2, ⟨rfl, hle, hu, e3⟩⟩
  unfold build
  rw [R.require_true h1, R.ok_bind, hrep, hc, R.ok_bind]
  have hg := get_table (m := t.largest) (lens sizes) (Nat.zero_le _)
  unfold table at hg hcl hoff
  rw [hg, R.ok_bind, R.require_true (by
    intro h
    rw [← lens_length sizes, count_zero_eq] at h
    obtain ⟨l, hl, h0⟩ := hex
    exact h0 (h l hl)), R.ok_bind]
  simp only [Int.pow_zero, Nat.cast_zero, Int.sub_zero, Nat.zero_add] at hcl
  rw [hcl, R.ok_bind, hoff, R.ok_bind, e1, R.ok_bind]
  rfl

theorem build_err (t : Tree) (sizes : List Byte)
    (hv : ¬ (sizes.length ≤ 65535 ∧ Valid t.largest (lens sizes))) : build t sizes = .err := by
  unfold build
  by_cases h1 : sizes.length ≤ 65535
  swap
  · rw [R.require_false h1, R.err_bind]
  rw [R.require_true h1, R.ok_bind]
  have hrep : List.replicate (t.largest + 1) 0 = (List.range (t.largest + 1)).map (fun _ => 0) := by
    rw [List.map_const']; simp
  have hc := countSizes_eq t.largest sizes (fun _ => 0)
  simp only [Nat.zero_add] at hc
  rw [hrep, hc]
  by_cases hle : ∀ l ∈ lens sizes, l ≤ t.largest
  swap
  · rw [if_neg hle, R.err_bind]
  rw [if_pos hle, R.ok_bind]
  have hg := get_table (m := t.largest) (lens sizes) (Nat.zero_le _)
  unfold table at hg
  rw [hg, R.ok_bind]
  by_cases hex : ∃ l ∈ lens sizes, l ≠ 0
  swap
  · rw [R.require_false, R.err_bind]
    simp only [ne_eq, Decidable.not_not]
    rw [← lens_length sizes, count_zero_eq]
    intro l hl
    by_contra h0
    exact hex ⟨l, hl, h0⟩
  rw [R.require_true (by
    intro h
    rw [← lens_length sizes, count_zero_eq] at h
    obtain ⟨l, hl, h0⟩ := hex
    exact h0 (h l hl)), R.ok_bind]
  have hcl := checkLeft_eq t.largest (lens sizes) 0 t.largest (by omega)
  have hu0 : used (lens sizes) 0 = 0 := by simp [used, first, count]
  rw [hu0] at hcl
  have hm : 1 ≤ t.largest := by
    obtain ⟨l, hl, h0⟩ := hex
    have := hle l hl
    omega
  rw [if_neg (fun hh => hv ⟨h1, hle, hex, (kraft_used _ _ hle).mpr (hh.resolve_left (by omega))⟩)] at hcl
  unfold table at hcl
  simp only [Int.pow_zero, Nat.cast_zero, Int.sub_zero, Nat.zero_add] at hcl
  rw [hcl, R.err_bind]

/-! ## Decoding -/

/-- Reading single bits from `st` gives `bs`, in order, and ends in the last argument. -/
inductive Reads {σ : Type} (getBit : σ → R (Nat × σ)) : σ → List Bool → σ → Prop where
  | nil (st) : Reads getBit st [] st
  | cons {st b st1 bs st2} : getBit st = .ok (b.toNat, st1) → Reads getBit st1 bs st2 →
      Reads getBit st (b :: bs) st2

theorem Reads.append {σ : Type} {getBit : σ → R (Nat × σ)} {a b st1 st2 st3}
    (h1 : Reads getBit st1 a st2) (h2 : Reads getBit st2 b st3) : Reads getBit st1 (a ++ b) st3 := by
  induction h1 with
  | nil => exact h2
  | cons h _ ih => exact .cons h (ih h2)

theorem shl_or_bit (c b : Nat) (h : b < 2) : (c <<< 1) ||| b = 2 * c + b := by
  rw [shl_or (k := 1) (by omega)]; omega

theorem code_lt {ls : List Nat} {s : Nat} (h : Coded ls s) :
    first ls (ls.getD s 0) ≤ code ls s ∧ code ls s < used ls (ls.getD s 0) := by
  have hs := coded_lt h
  have e : ls.getD s 0 = ls[s] := by simp [List.getD_eq_getElem?_getD, hs]
  unfold Coded at h
  unfold code used count
  rw [e] at h ⊢
  have := count_take_lt hs
  rw [if_neg (by omega)]
  simp only
  omega

theorem decodeLoop_ok {σ : Type} (getBit : σ → R (Nat × σ)) {t : Tree} {ls : List Nat} (ht : IsTree t ls)
    {s : Nat} (hs : Coded ls s) (k l : Nat) (hk : l + k = t.largest) (hl : l < ls.getD s 0) (st st' : σ)
    (hr : Reads getBit st (bits (ls.getD s 0 - l) (code ls s)) st') :
    decodeLoop getBit t (List.range' (l + 1) k) (first ls (l + 1)) (code ls s / 2 ^ (ls.getD s 0 - l))
      (idx ls (l + 1)) st = .ok (s, st') := by
  induction k generalizing l st with
  | zero =>
    have hle := ht.le (ls.getD s 0) (by
      have := coded_lt hs
      simp [List.getD_eq_getElem?_getD, this])
    omega
  | succ k ih =>
    obtain ⟨hc1, hc2⟩ := code_lt hs
    obtain ⟨n, hn⟩ : ∃ n, ls.getD s 0 - l = n + 1 := ⟨ls.getD s 0 - l - 1, by omega⟩
    rw [hn] at hr ⊢
    unfold bits at hr
    cases hr with
    | cons hb hr =>
      rename_i st1
      rw [List.range'_succ]
      unfold decodeLoop
      rw [hb, R.ok_bind]
      simp only
      have hbit : (decide (code ls s / 2 ^ n % 2 = 1)).toNat = code ls s / 2 ^ n % 2 := by
        by_cases h : code ls s / 2 ^ n % 2 = 1
        · simp [h]
        · have : code ls s / 2 ^ n % 2 = 0 := by omega
          simp [this]
      have hcode : (code ls s / 2 ^ (n + 1)) <<< 1 ||| (decide (code ls s / 2 ^ n % 2 = 1)).toNat
          = code ls s / 2 ^ n := by
        rw [hbit, shl_or_bit _ _ (by omega), Nat.pow_succ, ← Nat.div_div_eq_div_mul]
        omega
      rw [hcode, ht.counts, get_table ls (by omega), R.ok_bind]
      have hcnt : ls.count (l + 1) = count ls (l + 1) := by simp [count]
      by_cases h : l + 1 = ls.getD s 0
      · have hn0 : n = 0 := by omega
        subst hn0
        simp only [Nat.pow_zero, Nat.div_one, bits] at hr ⊢
        cases hr
        rw [← h] at hc1 hc2
        unfold used at hc2
        rw [if_pos (by omega)]
        have hi : ((idx ls (l + 1) : Nat) : Int) + ((code ls s : Nat) - (first ls (l + 1) : Nat) : Int)
            = ((pos ls s : Nat) : Int) := by
          unfold pos code
          rw [← h]
          simp only
          push_cast
          omega
        rw [hi, R.check_true (by omega), R.ok_bind]
        have := ht.sorted s hs
        simp only [Int.toNat_natCast]
        rw [R.get, this]
        rfl
      · have hge : used ls (l + 1) ≤ code ls s / 2 ^ n := by
          rw [Nat.le_div_iff_mul_le (Nat.two_pow_pos _)]
          have h1 := used_mono ls (l + 1) (n - 1)
          rw [show l + 1 + (n - 1) = ls.getD s 0 - 1 by omega] at h1
          have h2 : first ls (ls.getD s 0) = 2 * used ls (ls.getD s 0 - 1) := by
            rw [← first_succ]; congr 1; omega
          obtain ⟨n', rfl⟩ : ∃ n', n = n' + 1 := ⟨n - 1, by omega⟩
          rw [Nat.pow_succ, ← Nat.mul_assoc]
          simp only [Nat.add_sub_cancel] at h1
          omega
        have hge' : first ls (l + 1) + count ls (l + 1) ≤ code ls s / 2 ^ n := hge
        rw [if_neg (by omega)]
        have := ih (l + 1) (by omega) (by omega) st1 (by
          rw [show ls.getD s 0 - (l + 1) = n by omega]; exact hr)
        rw [show ls.getD s 0 - (l + 1) = n by omega] at this
        rw [hcnt, Nat.shiftLeft_eq, Nat.pow_one, Nat.mul_comm]
        exact this

theorem decode_ok {σ : Type} (getBit : σ → R (Nat × σ)) {t : Tree} {ls : List Nat} (ht : IsTree t ls)
    {s : Nat} (hs : Coded ls s) {st st' : σ} (hr : Reads getBit st (codeBits ls s) st') :
    decodeSymbol getBit t st = .ok (s, st') := by
  have hs' := hs
  unfold Coded at hs'
  have hc := (code_lt hs).2
  have hle := ht.le (ls.getD s 0) (by
    have := coded_lt hs
    simp [List.getD_eq_getElem?_getD, this])
  have hlt : code ls s < 2 ^ ls.getD s 0 := Nat.lt_of_lt_of_le hc (used_le ht.kraft hle)
  have := decodeLoop_ok getBit ht hs t.largest 0 (by omega) hs' st st' hr
  rw [Nat.sub_zero, Nat.div_eq_of_lt hlt] at this
  unfold decodeSymbol
  rw [show first ls (0 + 1) = 0 by simp [first, count], show idx ls (0 + 1) = 0 by simp [idx, count]] at this
  exact this

theorem exists_rank (ls : List Nat) (a r : Nat) (h : r < ls.count a) :
    ∃ s, ls[s]? = some a ∧ (ls.take s).count a = r := by
  induction ls generalizing r with
  | nil => simp at h
  | cons b ls ih =>
    by_cases hb : b = a
    · subst hb
      cases r with
      | zero => exact ⟨0, by simp, by simp⟩
      | succ r =>
        rw [List.count_cons_self] at h
        obtain ⟨s, h1, h2⟩ := ih r (by omega)
        exact ⟨s + 1, by simpa using h1, by simp [h2]⟩
    · rw [List.count_cons_of_ne hb] at h
      obtain ⟨s, h1, h2⟩ := ih r h
      exact ⟨s + 1, by simpa using h1, by simp [h2, List.count_cons_of_ne hb]⟩

theorem bits_snoc (l c b : Nat) (hb : b < 2) : bits (l + 1) (2 * c + b) = bits l c ++ [decide (b = 1)] := by
  induction l with
  | zero =>
    simp only [bits, Nat.pow_zero, Nat.div_one, List.nil_append]
    congr 2
    rw [show (2 * c + b) % 2 = b by omega]
  | succ l ih =>
    rw [bits, ih, bits]
    simp only [List.cons_append]
    congr 3
    rw [Nat.pow_succ', ← Nat.div_div_eq_div_mul]
    congr 3
    omega

theorem decodeLoop_sat {σ : Type} (getBit : σ → R (Nat × σ)) (I : σ → Prop)
    (hbit : ∀ st, I st → R.Sat (getBit st) fun r => r.1 < 2 ∧ I r.2)
    {t : Tree} {ls : List Nat} (ht : IsTree t ls) (k l : Nat) (hk : l + k = t.largest) (c : Nat)
    (hc : first ls (l + 1) ≤ 2 * c) (st0 st : σ) (hr : Reads getBit st0 (bits l c) st) (hI : I st) :
    R.Sat (decodeLoop getBit t (List.range' (l + 1) k) (first ls (l + 1)) c (idx ls (l + 1)) st)
      fun r => Coded ls r.1 ∧ Reads getBit st0 (codeBits ls r.1) r.2 ∧ I r.2 := by
  induction k generalizing l c st with
  | zero => exact R.sat_err
  | succ k ih =>
    rw [List.range'_succ]
    unfold decodeLoop
    have hb := hbit st hI
    generalize hg : getBit st = g at hb ⊢
    cases g with
    | err => exact R.sat_err
    | panic => exact absurd rfl hb.ne_panic
    | ok r =>
      obtain ⟨b, st1⟩ := r
      obtain ⟨hb1, hb2⟩ := hb
      simp only at hb1 hb2
      rw [R.ok_bind]
      simp only
      have hr1 : Reads getBit st0 (bits (l + 1) (2 * c + b)) st1 := by
        rw [bits_snoc l c b hb1]
        refine hr.append (.cons (st1 := st1) ?_ (.nil _))
        rw [hg]
        have : b = 0 ∨ b = 1 := by omega
        rcases this with rfl | rfl <;> rfl
      rw [shl_or_bit c b hb1, ht.counts, get_table ls (by omega), R.ok_bind]
      have hcnt : ls.count (l + 1) = count ls (l + 1) := by simp [count]
      refine R.sat_ite (fun h => ?_) (fun h => ?_)
      · obtain ⟨s, h1, h2⟩ := exists_rank ls (l + 1) (2 * c + b - first ls (l + 1)) (by omega)
        have hgd : ls.getD s 0 = l + 1 := by rw [List.getD_eq_getElem?_getD, h1]; rfl
        have hcd : Coded ls s := by unfold Coded; omega
        have hi : ((idx ls (l + 1) : Nat) : Int) + ((2 * c + b : Nat) - (first ls (l + 1) : Nat) : Int)
            = ((pos ls s : Nat) : Int) := by
          unfold pos
          rw [hgd, h2]
          omega
        rw [hi, R.check_true (by omega), R.ok_bind, Int.toNat_natCast, R.get, ht.sorted s hcd]
        refine R.sat_ok ⟨hcd, ?_, hb2⟩
        unfold codeBits code
        simp only
        rw [hgd, h2, show first ls (l + 1) + (2 * c + b - first ls (l + 1)) = 2 * c + b by omega]
        exact hr1
      · have := ih (l + 1) (by omega) (2 * c + b) (by
          rw [first_succ]; unfold used; omega) st1 hr1 hb2
        rw [hcnt, Nat.shiftLeft_eq, Nat.pow_one, Nat.mul_comm]
        exact this

theorem decode_sat {σ : Type} (getBit : σ → R (Nat × σ)) (I : σ → Prop)
    (hbit : ∀ st, I st → R.Sat (getBit st) fun r => r.1 < 2 ∧ I r.2)
    {t : Tree} {ls : List Nat} (ht : IsTree t ls) (st : σ) (hI : I st) :
    R.Sat (decodeSymbol getBit t st)
      fun r => Coded ls r.1 ∧ Reads getBit st (codeBits ls r.1) r.2 ∧ I r.2 := by
  have := decodeLoop_sat getBit I hbit ht t.largest 0 (by omega) 0 (by simp [first, count]) st st (.nil _) hI
  rw [show first ls (0 + 1) = 0 by simp [first, count], show idx ls (0 + 1) = 0 by simp [idx, count]] at this
  exact this

end Keramics.Huffman
