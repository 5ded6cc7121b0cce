import Verif.Lemmas.Bzip2Bits
import Verif.Lemmas.Bzip2Bwt

/-! # The tables of a bzip2 block: symbol map, selectors, trees -/

namespace Keramics.Bzip2
open Keramics.Spec.Bzip2 Keramics.Spec.Huffman Keramics.Huffman

theorem exists_bits (l : List Bool) : ∃ v, v < 2 ^ l.length ∧ bits l.length v = l := by
  induction l with
  | nil => exact ⟨0, by simp, rfl⟩
  | cons b l ih =>
    obtain ⟨v, hv, e⟩ := ih
    refine ⟨b.toNat * 2 ^ l.length + v, ?_, ?_⟩
    · have : b.toNat ≤ 1 := by cases b <;> simp
      rw [List.length_cons, Nat.pow_succ]
      have : b.toNat * 2 ^ l.length ≤ 1 * 2 ^ l.length := Nat.mul_le_mul_right _ this
      omega
    · rw [List.length_cons, Nat.add_comm l.length 1, bits_join hv, e]
      cases b <;> rfl

theorem bits_get (k v j : Nat) (h : j < k) : (bits k v)[j]? = some (decide (v / 2 ^ (k - 1 - j) % 2 = 1)) := by
  induction k generalizing j with
  | zero => omega
  | succ k ih =>
    unfold bits
    cases j with
    | zero => simp
    | succ j =>
      rw [List.getElem?_cons_succ, ih j (by omega)]
      rw [show k + 1 - 1 - (j + 1) = k - 1 - j by omega]

/-- Whether a bit of a value of 16 bits is set. -/
theorem mask_iff {v j : Nat} (h : j < 16) : (v &&& (0x8000 >>> j) ≠ 0) ↔ (bits 16 v)[j]? = some true := by
  have e : 0x8000 >>> j = 2 ^ (15 - j) := by
    have := (by decide : ∀ i : Fin 16, 0x8000 >>> i.val = 2 ^ (15 - i.val)) ⟨j, h⟩
    exact this
  rw [e, bits_get 16 v j h, show 16 - 1 - j = 15 - j by omega, ← Nat.testBit_eq_decide_div_mod_eq, Option.some.injEq]
  constructor
  · intro hne
    by_contra hb
    apply hne
    apply Nat.eq_of_testBit_eq
    intro i
    rw [Nat.testBit_and, Nat.testBit_two_pow, Nat.zero_testBit]
    by_cases hi : 15 - j = i
    · subst hi
      simp only [Bool.not_eq_true] at hb
      simp [hb]
    · simp [hi]
  · intro hb h0
    have := congrArg (fun x => x.testBit (15 - j)) h0
    simp [Nat.testBit_two_pow, hb] at this

/-- The used bytes of a row. -/
def rowBytes (used : Nat → Bool) (i : Nat) (js : List Nat) : List Byte := (js.filter fun j => used (16 * i + j)).map fun j => BitVec.ofNat 8 (16 * i + j)

theorem level2_ok (used : Nat → Bool) (v i : Nat) (hv : bits 16 v = (List.range 16).map fun j => used (16 * i + j)) (js : List Nat) :
    ∀ (w r : List Byte), (∀ j ∈ js, j < 16) → (w ++ r).length = 256 → w.length + (rowBytes used i js).length ≤ 256 →
      level2 v i js (w ++ r) w.length = .ok (w ++ rowBytes used i js ++ r.drop (rowBytes used i js).length, w.length + (rowBytes used i js).length) := by
  induction js with
  | nil => intro w r _ _ _; simp [level2, rowBytes]
  | cons j js ih =>
    intro w r hj hl hw
    have hj16 : j < 16 := hj j (by simp)
    unfold level2
    have hm := mask_iff (v := v) hj16
    rw [hv, List.getElem?_map, List.getElem?_range hj16, Option.map_some, Option.some.injEq] at hm
    by_cases hu : used (16 * i + j) = true
    · rw [if_pos (hm.2 hu)]
      have e : rowBytes used i (j :: js) = BitVec.ofNat 8 (16 * i + j) :: rowBytes used i js := by
        unfold rowBytes; rw [List.filter_cons_of_pos (by simpa using hu)]; rfl
      rw [e] at hw ⊢
      simp only [List.length_cons] at hw ⊢
      cases r with
      | nil => simp at hl; omega
      | cons x r =>
        rw [R.require_true (by omega), R.ok_bind, R.set_ok (by simp), R.ok_bind]
        have := ih (w ++ [BitVec.ofNat 8 (16 * i + j)]) r (fun j' h' => hj j' (by simp [h'])) (by simpa using hl) (by simp; omega)
        rw [List.set_append_right _ _ (Nat.le_refl _), Nat.sub_self, List.set_cons_zero]
        simp only [List.length_append, List.length_cons, List.length_nil, List.append_assoc, List.cons_append, List.nil_append] at this
        rw [this]
        simp only [List.drop_succ_cons, List.append_assoc, List.cons_append, R.ok.injEq, Prod.mk.injEq, true_and]
        omega
    · rw [if_neg (fun h => hu (hm.1 h))]
      have e : rowBytes used i (j :: js) = rowBytes used i js := by
        unfold rowBytes; rw [List.filter_cons_of_neg (by simpa using hu)]
      rw [e] at hw ⊢
      exact ih w r (fun j' h' => hj j' (by simp [h'])) hl hw

theorem rowBytes_unused {used : Nat → Bool} {i : Nat} (h : rowUsed used i ≠ true) : rowBytes used i (List.range 16) = [] := by
  unfold rowBytes
  unfold rowUsed at h
  rw [List.filter_eq_nil_iff.2 (fun j hj hu => h (List.any_eq_true.2 ⟨j, hj, hu⟩))]
  rfl

theorem level1_ok {data : List Byte} (used : Nat → Bool) (v : Nat) (hv : bits 16 v = (List.range 16).map (rowUsed used)) (is : List Nat) :
    ∀ (w r : List Byte) (s : Bs) (rest : List Bool), (∀ i ∈ is, i < 16) → (w ++ r).length = 256 →
      w.length + (is.flatMap fun i => rowBytes used i (List.range 16)).length ≤ 256 →
      At data s (((is.filter (rowUsed used)).flatMap fun i => (List.range 16).map fun j => used (16 * i + j)) ++ rest) →
      ∃ s', level1 data v is (w ++ r) w.length s = .ok (w ++ (is.flatMap fun i => rowBytes used i (List.range 16)) ++
          r.drop (is.flatMap fun i => rowBytes used i (List.range 16)).length, w.length + (is.flatMap fun i => rowBytes used i (List.range 16)).length, s') ∧
        At data s' rest := by
  induction is with
  | nil =>
    intro w r s rest _ _ _ h
    exact ⟨s, by simp [level1], by simpa using h⟩
  | cons i is ih =>
    intro w r s rest hi hl hw h
    have hi16 : i < 16 := hi i (by simp)
    have hm := mask_iff (v := v) hi16
    rw [hv, List.getElem?_map, List.getElem?_range hi16, Option.map_some, Option.some.injEq] at hm
    rw [List.flatMap_cons] at hw ⊢
    unfold level1
    by_cases hu : rowUsed used i = true
    · rw [if_pos (hm.2 hu)]
      rw [List.filter_cons_of_pos (by simpa using hu), List.flatMap_cons, List.append_assoc] at h
      obtain ⟨x, hx, ex⟩ := exists_bits ((List.range 16).map fun j => used (16 * i + j))
      simp only [List.length_map, List.length_range] at hx ex
      rw [← ex] at h
      obtain ⟨s1, e1, h1⟩ := getValue_ok (by omega) h hx
      rw [e1, R.ok_bind]
      simp only [List.length_append] at hw
      simp only
      rw [level2_ok used x i ex (List.range 16) w r (fun j hj => List.mem_range.1 hj) hl (by omega), R.ok_bind]
      simp only
      have hl' : (w ++ rowBytes used i (List.range 16) ++ r.drop (rowBytes used i (List.range 16)).length).length = 256 := by
        simp only [List.length_append, List.length_drop] at hl ⊢
        omega
      obtain ⟨s2, e2, h2⟩ := ih (w ++ rowBytes used i (List.range 16)) (r.drop (rowBytes used i (List.range 16)).length) s1 rest
        (fun i' h' => hi i' (by simp [h'])) hl' (by simp only [List.length_append]; omega) h1
      rw [List.length_append] at e2
      refine ⟨s2, ?_, h2⟩
      rw [e2]
      simp only [List.append_assoc, List.length_append, List.drop_drop, R.ok.injEq, Prod.mk.injEq, true_and, and_true]
      omega
    · rw [if_neg (fun h => hu (hm.1 h))]
      rw [List.filter_cons_of_neg (by simpa using hu)] at h
      rw [rowBytes_unused hu, List.nil_append] at hw ⊢
      exact ih w r s rest (fun i' h' => hi i' (by simp [h'])) hl hw h

theorem usedBytes_rows (used : Nat → Bool) : usedBytes used = (List.range 16).flatMap fun i => rowBytes used i (List.range 16) := by
  unfold usedBytes rowBytes
  have e : List.range 256 = (List.range 16).flatMap fun i => (List.range 16).map fun j => 16 * i + j := by decide +kernel
  rw [e, List.filter_flatMap, List.map_flatMap]
  congr 1
  funext i
  rw [List.filter_map, List.map_map]
  rfl

theorem usedBytes_length (used : Nat → Bool) : (usedBytes used).length ≤ 256 := by
  unfold usedBytes
  rw [List.length_map]
  have := List.length_filter_le used (List.range 256)
  rwa [List.length_range] at this

theorem readSymbolStack_ok {data : List Byte} (used : Nat → Bool) (stack : List Byte) (hs : stack.length = 256) (s : Bs) (rest : List Bool)
    (h : At data s (mapBits used ++ rest)) :
    ∃ s', readSymbolStack data stack s = .ok (usedBytes used ++ stack.drop (usedBytes used).length, (usedBytes used).length + 2, s') ∧ At data s' rest := by
  unfold mapBits at h
  rw [List.append_assoc] at h
  obtain ⟨x, hx, ex⟩ := exists_bits ((List.range 16).map (rowUsed used))
  simp only [List.length_map, List.length_range] at hx ex
  rw [← ex] at h
  obtain ⟨s1, e1, h1⟩ := getValue_ok (by omega) h hx
  have hu := usedBytes_length used
  obtain ⟨s2, e2, h2⟩ := level1_ok used x ex (List.range 16) [] stack s1 rest (fun i hi => List.mem_range.1 hi) (by simpa using hs)
    (by rw [← usedBytes_rows]; simpa using hu) h1
  rw [← usedBytes_rows] at e2
  simp only [List.nil_append, List.length_nil, Nat.zero_add] at e2
  refine ⟨s2, ?_, h2⟩
  unfold readSymbolStack
  rw [e1, R.ok_bind]
  simp only
  rw [e2, R.ok_bind]
  rfl

/-! ## Move to front -/

theorem shiftUp_ok (p : List Byte) : ∀ (x : Byte) (r : List Byte), ∃ h, shiftUp p.length (p ++ x :: r) = .ok (h :: (p ++ r)) := by
  induction hn : p.length generalizing p with
  | zero =>
    intro x r
    have : p = [] := List.length_eq_zero_iff.1 hn
    subst this
    exact ⟨x, rfl⟩
  | succ k ih =>
    intro x r
    obtain ⟨q, y, rfl⟩ : ∃ q y, p = q ++ [y] := ⟨p.dropLast, p.getLast (by intro e; simp [e] at hn), (List.dropLast_append_getLast _).symm⟩
    simp only [List.length_append, List.length_cons, List.length_nil] at hn
    have hq : q.length = k := by omega
    unfold shiftUp
    rw [R.get_ok (by simp; omega), R.ok_bind, R.set_ok (by simp; omega), R.ok_bind]
    obtain ⟨h, e⟩ := ih q hq y (y :: r)
    refine ⟨h, ?_⟩
    have e1 : (q ++ [y] ++ x :: r)[k]'(by simp; omega) = y := by
      simp [← hq]
    have e2 : (q ++ [y] ++ x :: r).set (k + 1) y = q ++ y :: y :: r := by
      rw [List.set_append_right _ _ (by simp; omega)]
      simp [hq]
    rw [e1, e2, e]
    simp

theorem moveToFront_ok (p : List Byte) (x : Byte) (r : List Byte) : moveToFront (p ++ x :: r) p.length = .ok (x, x :: (p ++ r)) := by
  unfold moveToFront
  obtain ⟨h, e⟩ := shiftUp_ok p x r
  rw [R.get_ok (by simp), R.ok_bind, e, R.ok_bind, R.set_ok (by simp), R.ok_bind]
  simp

theorem split_idxOf {α : Type} [DecidableEq α] {S : List α} {x : α} (h : x ∈ S) : ∃ p r, S = p ++ x :: r ∧ p.length = S.idxOf x ∧ S.erase x = p ++ r := by
  induction S with
  | nil => simp at h
  | cons a S ih =>
    by_cases hax : a = x
    · subst hax
      exact ⟨[], S, by simp, by simp, by simp⟩
    · obtain ⟨p, r, e1, e2, e3⟩ := ih (by simpa [Ne.symm hax] using h)
      refine ⟨a :: p, r, by simp [← e1], ?_, ?_⟩
      · rw [List.idxOf_cons_ne _ hax, List.length_cons, e2]
      · rw [List.erase_cons_tail (by simpa using hax), e3]; rfl

/-! ## Selectors -/

theorem countOnes_ok {data : List Byte} (k : Nat) : ∀ (left index : Nat) (s : Bs) (rest : List Bool), k < left → At data s (unary k ++ rest) →
    ∃ s', countOnes data left index s = .ok (index + k, s') ∧ At data s' rest := by
  induction k with
  | zero =>
    intro left index s rest hk h
    obtain ⟨left, rfl⟩ : ∃ l, left = l + 1 := ⟨left - 1, by omega⟩
    obtain ⟨s', e, h'⟩ := getBit_ok (b := false) (rest := rest) (by simpa [unary] using h)
    unfold countOnes
    rw [e, R.ok_bind]
    exact ⟨s', by simp, h'⟩
  | succ k ih =>
    intro left index s rest hk h
    obtain ⟨left, rfl⟩ : ∃ l, left = l + 1 := ⟨left - 1, by omega⟩
    obtain ⟨s1, e, h1⟩ := getBit_ok (b := true) (rest := unary k ++ rest) (by simpa [unary, List.replicate_succ] using h)
    obtain ⟨s2, e2, h2⟩ := ih left (index + 1) s1 rest (by omega) h1
    unfold countOnes
    rw [e, R.ok_bind]
    refine ⟨s2, ?_, h2⟩
    simp only [Bool.toNat_true, one_ne_zero, if_false]
    rw [e2]
    congr 2
    omega

/-- Trees as bytes. -/
def treeBytes (l : List Nat) : List Byte := l.map (BitVec.ofNat 8)

theorem selectorLoop_ok {data : List Byte} {trees : Nat} (sel : List Nat) : ∀ (S : List Nat) (extra w r : List Byte) (s : Bs) (rest : List Bool),
    S.length = trees → (∀ t ∈ sel, t ∈ S) → sel.length ≤ r.length → At data s ((mtf S sel).flatMap unary ++ rest) →
    ∃ s', selectorLoop data trees sel.length w.length (treeBytes S ++ extra) (w ++ r) s = .ok (w ++ treeBytes sel ++ r.drop sel.length, s') ∧ At data s' rest := by
  induction sel with
  | nil =>
    intro S extra w r s rest _ _ _ h
    exact ⟨s, by simp [selectorLoop, treeBytes], by simpa [mtf] using h⟩
  | cons t sel ih =>
    intro S extra w r s rest hS hm hr h
    obtain ⟨p, q, e1, e2, e3⟩ := split_idxOf (hm t (by simp))
    have hlt : S.idxOf t < trees := by rw [← hS]; exact List.idxOf_lt_length_iff.2 (hm t (by simp))
    simp only [mtf, List.flatMap_cons, List.append_assoc] at h
    obtain ⟨s1, c1, h1⟩ := countOnes_ok _ trees 0 s _ hlt h
    cases r with
    | nil => simp at hr
    | cons x r =>
      have hperm : ∀ u ∈ S, u ∈ t :: S.erase t := by
        intro u hu
        by_cases hut : u = t
        · simp [hut]
        · exact List.mem_cons_of_mem _ ((List.mem_erase_of_ne hut).2 hu)
      obtain ⟨s2, c2, h2⟩ := ih (t :: S.erase t) extra (w ++ [BitVec.ofNat 8 t]) r s1 rest
        (by rw [List.length_cons, List.length_erase_of_mem (hm t (by simp)), hS]; omega)
        (fun u hu => hperm u (hm u (by simp [hu]))) (by simpa using hr) h1
      refine ⟨s2, ?_, h2⟩
      rw [List.length_cons]
      unfold selectorLoop
      rw [c1, R.ok_bind]
      simp only [Nat.zero_add]
      rw [R.require_true hlt, R.ok_bind]
      have em : moveToFront (treeBytes S ++ extra) (S.idxOf t) = .ok (BitVec.ofNat 8 t, treeBytes (t :: S.erase t) ++ extra) := by
        have := moveToFront_ok (treeBytes p) (BitVec.ofNat 8 t) (treeBytes q ++ extra)
        rw [← e2]
        rw [show (treeBytes p).length = p.length by simp [treeBytes]] at this
        rw [show treeBytes S ++ extra = treeBytes p ++ BitVec.ofNat 8 t :: (treeBytes q ++ extra) by
          conv_lhs => rw [e1]
          simp [treeBytes]]
        rw [this, e3]
        simp [treeBytes]
      rw [em, R.ok_bind]
      simp only
      rw [R.set_ok (by simp), R.ok_bind, List.set_append_right _ _ (Nat.le_refl _), Nat.sub_self, List.set_cons_zero]
      simp only [List.length_append, List.length_cons, List.length_nil, List.append_assoc, List.cons_append, List.nil_append] at c2
      rw [c2]
      simp [treeBytes]

theorem readSelectors_ok {data : List Byte} {trees : Nat} (ht : trees ≤ 7) (sel : List Nat) (hm : ∀ t ∈ sel, t < trees) (selectors : List Byte) (hs : sel.length ≤ selectors.length)
    (s : Bs) (rest : List Bool) (h : At data s (selectorBits trees sel ++ rest)) :
    ∃ s', readSelectors data selectors sel.length trees s = .ok (treeBytes sel ++ selectors.drop sel.length, s') ∧ At data s' rest := by
  have e : [0#8, 1#8, 2#8, 3#8, 4#8, 5#8, 6#8] = treeBytes (List.range trees) ++ [0#8, 1#8, 2#8, 3#8, 4#8, 5#8, 6#8].drop trees := by
    have := (by decide : ∀ i : Fin 8, [0#8, 1#8, 2#8, 3#8, 4#8, 5#8, 6#8] = treeBytes (List.range i.val) ++ [0#8, 1#8, 2#8, 3#8, 4#8, 5#8, 6#8].drop i.val) ⟨trees, by omega⟩
    exact this
  obtain ⟨s', h1, h2⟩ := selectorLoop_ok sel (List.range trees) ([0#8, 1#8, 2#8, 3#8, 4#8, 5#8, 6#8].drop trees) [] selectors s rest (List.length_range)
    (fun t h => List.mem_range.2 (hm t h)) hs h
  rw [← e] at h1
  exact ⟨s', by simpa [readSelectors] using h1, h2⟩

end Keramics.Bzip2
