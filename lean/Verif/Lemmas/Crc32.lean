import Verif.Model.Crc32
import Verif.Spec.Crc32
import Mathlib.Tactic.ByContra

namespace Keramics.Crc32
open Keramics.Spec

/-- One zero bit. -/
def z (P r : BitVec 32) : BitVec 32 := crcBit P r false

/-- Eight zero bits. -/
def z8 (P r : BitVec 32) : BitVec 32 := z P (z P (z P (z P (z P (z P (z P (z P r)))))))

theorem and_msb (x : BitVec 32) : (x &&& 0x80000000#32 ≠ 0#32) ↔ x.msb = true := by
  rw [BitVec.msb_eq_getLsbD_last]
  constructor
  · intro h
    by_contra hc
    apply h
    apply BitVec.eq_of_getLsbD_eq
    intro i hi
    rw [BitVec.getLsbD_and]
    by_cases e : i = 31
    · subst e; simp at hc; simp [hc]
    · have : (0x80000000#32).getLsbD i = false := by
        have : ∀ j : Fin 32, j.1 ≠ 31 → (0x80000000#32).getLsbD j.1 = false := by decide
        exact this ⟨i, hi⟩ e
      simp [this]
  · intro h hc
    have := congrArg (fun v => BitVec.getLsbD v 31) hc
    simp at this
    simp [this] at h

theorem bitStep_eq (P x : BitVec 32) : bitStep P x = z P x := by
  unfold bitStep z crcBit
  by_cases h : x.msb = true
  · rw [if_pos ((and_msb x).2 h), h]; simp [BitVec.xor_comm]
  · rw [if_neg (fun hh => h ((and_msb x).1 hh))]; simp [h]

theorem z_xor (P a b : BitVec 32) : z P (a ^^^ b) = z P a ^^^ z P b := by
  unfold z crcBit
  rw [BitVec.shiftLeft_xor_distrib, BitVec.msb_xor]
  cases a.msb <;> cases b.msb <;> simp [BitVec.xor_assoc]
  · rw [BitVec.xor_comm P]
  · rw [BitVec.xor_comm (b <<< 1) P, ← BitVec.xor_assoc P, BitVec.xor_self, BitVec.zero_xor]

theorem z8_xor (P a b : BitVec 32) : z8 P (a ^^^ b) = z8 P a ^^^ z8 P b := by
  simp only [z8, z_xor]

/-- The message bit enters at the top of the register. -/
def top (m : Bool) : BitVec 32 := if m then 0x80000000#32 else 0#32

theorem crcBit_eq (P r : BitVec 32) (m : Bool) : crcBit P r m = z P (r ^^^ top m) := by
  cases m
  · simp [top, z]
  · rw [z_xor]
    have hm : (0x80000000#32).msb = true := by decide
    unfold z crcBit top
    simp only [if_true, hm]
    cases r.msb <;> simp [BitVec.xor_assoc]

theorem z_zero (P : BitVec 32) : z P 0#32 = 0#32 := by simp [z, crcBit]

theorem z_bit (P : BitVec 32) (m : Bool) (k : Nat) (hk : k < 31) :
    z P (if m then 1#32 <<< k else 0#32) = if m then 1#32 <<< (k+1) else 0#32 := by
  cases m
  · simpa using z_zero P
  · have : (1#32 <<< k).msb = false := by
      rw [BitVec.msb_eq_getLsbD_last]; simp; omega
    simp [z, crcBit, this, BitVec.shiftLeft_add]

theorem top_eq (m : Bool) : top m = if m then 1#32 <<< 31 else 0#32 := by
  cases m <;> rfl

theorem byte_bits (b : Byte) : b.setWidth 32 <<< 24
    = (if b.getLsbD 7 then 1#32 <<< 31 else 0#32) ^^^ (if b.getLsbD 6 then 1#32 <<< 30 else 0#32)
    ^^^ (if b.getLsbD 5 then 1#32 <<< 29 else 0#32) ^^^ (if b.getLsbD 4 then 1#32 <<< 28 else 0#32)
    ^^^ (if b.getLsbD 3 then 1#32 <<< 27 else 0#32) ^^^ (if b.getLsbD 2 then 1#32 <<< 26 else 0#32)
    ^^^ (if b.getLsbD 1 then 1#32 <<< 25 else 0#32)
    ^^^ (if b.getLsbD 0 then 1#32 <<< 24 else 0#32) := by
  revert b; decide +kernel

theorem byte_spec (P r : BitVec 32) (b : Byte) :
    crcBits P r (bitsMsbFirst b) = z8 P (r ^^^ (b.setWidth 32 <<< 24)) := by
  rw [byte_bits]
  simp only [crcBits, bitsMsbFirst, List.foldl_cons, List.foldl_nil, crcBit_eq, top_eq, z8, z_xor,
    BitVec.xor_assoc]
  simp (discharger := omega) only [z_bit, Nat.reduceAdd]

theorem z_low (P x : BitVec 32) (k n : Nat) (_ : n + k < 32) (h : x.getLsbD (31 - k) = false) :
    z P (x <<< k) = x <<< (k + 1) := by
  have : (x <<< k).msb = false := by
    rw [BitVec.msb_eq_getLsbD_last, BitVec.getLsbD_shiftLeft]
    simp only [Nat.reduceSub, h, Bool.and_false]
  simp [z, crcBit, this, BitVec.shiftLeft_add]

theorem z8_low (P x : BitVec 32) (h : ∀ i, 24 ≤ i → x.getLsbD i = false) :
    z8 P x = x <<< 8 := by
  have h0 : x = x <<< 0 := by simp
  unfold z8
  rw [h0, z_low P x 0 0 (by omega) (h _ (by omega)), z_low P x _ 0 (by omega) (h _ (by omega)),
    z_low P x _ 0 (by omega) (h _ (by omega)), z_low P x _ 0 (by omega) (h _ (by omega)),
    z_low P x _ 0 (by omega) (h _ (by omega)), z_low P x _ 0 (by omega) (h _ (by omega)),
    z_low P x _ 0 (by omega) (h _ (by omega)), z_low P x _ 0 (by omega) (h _ (by omega))]
  simp

theorem tableEntry_eq (P : BitVec 32) (i : Nat) :
    tableEntry P i = z8 P (BitVec.ofNat 32 i <<< 24) := by
  simp only [tableEntry, bitStep_eq, z8]
  rfl

theorem byte_table (P r : BitVec 32) (b : Byte) :
    tableEntry P (((r >>> 24) ^^^ b.setWidth 32) &&& 0x000000ff#32).toNat ^^^ (r <<< 8)
      = crcBits P r (bitsMsbFirst b) := by
  rw [byte_spec, tableEntry_eq, BitVec.ofNat_toNat, BitVec.setWidth_eq]
  have e : r ^^^ (b.setWidth 32 <<< 24)
      = ((((r >>> 24) ^^^ b.setWidth 32) &&& 0x000000ff#32) <<< 24) ^^^ (r &&& 0x00ffffff#32) := by
    have hff : ∀ j : Fin 32, (0x000000ff#32).getLsbD j.1 = decide (j.1 < 8) := by decide
    have hff2 : ∀ j : Fin 32, (0x00ffffff#32).getLsbD j.1 = decide (j.1 < 24) := by decide
    apply BitVec.eq_of_getLsbD_eq
    intro i hi
    have h1 := hff2 ⟨i, hi⟩
    simp only at h1
    simp only [BitVec.getLsbD_xor, BitVec.getLsbD_shiftLeft, BitVec.getLsbD_and, h1,
      BitVec.getLsbD_ushiftRight, BitVec.getLsbD_setWidth]
    by_cases c : i < 24
    · simp [c]
    · have h2 := hff ⟨i - 24, by omega⟩
      simp only at h2
      have h3 : i - 24 < 8 := by omega
      have h4 : 24 + (i - 24) = i := by omega
      have h5 : i - 24 < 32 := by omega
      simp [c, hi, h2, h3, h4, h5]
  have l : z8 P (r &&& 0x00ffffff#32) = r <<< 8 := by
    have hff2 : ∀ j : Fin 32, (0x00ffffff#32).getLsbD j.1 = decide (j.1 < 24) := by decide
    rw [z8_low]
    · apply BitVec.eq_of_getLsbD_eq
      intro i hi
      simp only [BitVec.getLsbD_shiftLeft, BitVec.getLsbD_and]
      by_cases c : i < 8
      · simp [c]
      · have := hff2 ⟨i - 8, by omega⟩
        simp only at this
        have h3 : i - 8 < 24 := by omega
        simp [this, h3]
    · intro i hi
      rw [BitVec.getLsbD_and]
      by_cases hlt : i < 32
      · have := hff2 ⟨i, hlt⟩
        simp only at this
        have h3 : ¬ i < 24 := by omega
        simp [this, h3]
      · rw [BitVec.getLsbD_of_ge _ _ (by omega)]; simp
  rw [e, z8_xor, l]

theorem fill_table (f : Nat → BitVec 32) (n : Nat) (t : List (BitVec 32)) (h : n ≤ t.length) :
    (List.range n).foldlM (fun t i => R.set t i (f i)) t
      = R.ok ((List.range n).map f ++ t.drop n) := by
  induction n with
  | zero => simp
  | succ n ih =>
    rw [List.range_succ, List.foldlM_append, ih (by omega)]
    simp only [R.ok_bind, List.foldlM_cons, List.foldlM_nil]
    rw [R.set_ok (by simp; omega)]
    simp only [R.ok_bind, R.pure_eq, R.ok.injEq]
    rw [List.set_append_right _ _ (by simp)]
    simp only [List.length_map, List.length_range, Nat.sub_self, List.map_append, List.map_cons,
      List.map_nil, List.append_assoc, List.append_cancel_left_eq]
    rw [List.drop_eq_getElem_cons (by omega)]
    rfl

/-- What `new` and `update` maintain for the MSB-first context. -/
structure Inv (entry : BitVec 32 → Nat → BitVec 32) (c : Ctx) : Prop where
  len : c.table.length = 256
  tbl : c.tableInitialized = true → c.table = (List.range 256).map (entry c.polynomial)

theorem Inv.new (entry) (P i : BitVec 32) : Inv entry (Ctx.new P i) :=
  ⟨List.length_replicate, fun h => by cases h⟩

theorem idx_lt (x : BitVec 32) : (x &&& 0x000000ff#32).toNat < 256 := by
  rw [BitVec.toNat_and]
  exact Nat.lt_of_le_of_lt Nat.and_le_right (by decide)

theorem updateByte_ok (P r : BitVec 32) (b : Byte) :
    updateByte ((List.range 256).map (tableEntry P)) r b
      = R.ok (crcBits P r (bitsMsbFirst b)) := by
  unfold updateByte
  have := idx_lt ((r >>> 24) ^^^ b.setWidth 32)
  simp only
  rw [R.get_ok (by simpa using this)]
  simp only [R.ok_bind, R.pure_eq, List.getElem_map, List.getElem_range, byte_table]

theorem updateBytes_ok (P r : BitVec 32) (bs : List Byte) :
    bs.foldlM (updateByte ((List.range 256).map (tableEntry P))) r
      = R.ok (crcBits P r (bs.flatMap bitsMsbFirst)) := by
  induction bs generalizing r with
  | nil => rfl
  | cons b bs ih =>
    rw [List.foldlM_cons, updateByte_ok, R.ok_bind, ih, List.flatMap_cons]
    simp only [crcBits, List.foldl_append]

theorem update_ok (c : Ctx) (h : Inv tableEntry c) (data : List Byte) :
    ∃ c', c.update data = R.ok c' ∧ Inv tableEntry c' ∧ c'.polynomial = c.polynomial ∧
      c'.initialValue = c.initialValue ∧
      c'.checksum = crcBits c.polynomial c.checksum (data.flatMap bitsMsbFirst) := by
  obtain ⟨P, i, k, t, init⟩ := c
  cases init
  · refine ⟨⟨P, i, crcBits P k (data.flatMap bitsMsbFirst), (List.range 256).map (tableEntry P),
      true⟩, ?_, ⟨by simp, fun _ => rfl⟩, rfl, rfl, rfl⟩
    have hl := h.len
    simp only at hl
    simp only [Ctx.update, Ctx.initializeTable, Bool.not_false, if_true]
    rw [fill_table _ _ _ (by omega)]
    simp only [R.ok_bind, R.pure_eq]
    rw [← hl, List.drop_length, List.append_nil, hl, updateBytes_ok]
    rfl
  · have ht := h.tbl rfl
    simp only at ht
    subst ht
    refine ⟨⟨P, i, crcBits P k (data.flatMap bitsMsbFirst), (List.range 256).map (tableEntry P),
      true⟩, ?_, ⟨by simp, fun _ => rfl⟩, rfl, rfl, rfl⟩
    simp [Ctx.update, updateBytes_ok]

theorem updates_ok (c : Ctx) (h : Inv tableEntry c) (chunks : List (List Byte)) :
    ∃ c', chunks.foldlM Ctx.update c = R.ok c' ∧ Inv tableEntry c' ∧
      c'.polynomial = c.polynomial ∧ c'.initialValue = c.initialValue ∧
      c'.checksum = crcBits c.polynomial c.checksum (chunks.flatten.flatMap bitsMsbFirst) := by
  induction chunks generalizing c with
  | nil => exact ⟨c, rfl, h, rfl, rfl, rfl⟩
  | cons x xs ih =>
    obtain ⟨c1, h1, h2, h3, h4, h5⟩ := update_ok c h x
    obtain ⟨c2, g1, g2, g3, g4, g5⟩ := ih c1 h2
    refine ⟨c2, by rw [List.foldlM_cons, h1]; exact g1, g2, by rw [g3, h3], by rw [g4, h4], ?_⟩
    rw [g5, h5, h3]
    simp [crcBits]

/-! ### Reflected -/

theorem rev_bit {w : Nat} (x : BitVec w) (i : Nat) (h : i < w) :
    x.reverse.getLsbD i = x.getLsbD (w - 1 - i) := by
  rw [BitVec.getLsbD_reverse, BitVec.getMsbD]; simp [h]

theorem rev_rev {w : Nat} (x : BitVec w) : x.reverse.reverse = x := by
  apply BitVec.eq_of_getLsbD_eq
  intro i hi
  rw [rev_bit _ _ hi, rev_bit _ _ (by omega)]
  congr 1; omega

theorem rev_xor (x y : BitVec 32) : (x ^^^ y).reverse = x.reverse ^^^ y.reverse := by
  apply BitVec.eq_of_getLsbD_eq
  intro i hi
  simp only [BitVec.getLsbD_xor, rev_bit _ _ hi]

theorem rev_shr (x : BitVec 32) (k : Nat) : (x >>> k).reverse = x.reverse <<< k := by
  apply BitVec.eq_of_getLsbD_eq
  intro i hi
  rw [rev_bit _ _ hi, BitVec.getLsbD_ushiftRight, BitVec.getLsbD_shiftLeft]
  by_cases c : i < k
  · rw [BitVec.getLsbD_of_ge _ _ (by omega)]; simp [c]
  · rw [rev_bit _ _ (by omega)]
    simp only [hi, c, decide_true, decide_false, Bool.not_false, Bool.true_and]
    congr 1; omega

theorem and_one (x : BitVec 32) : (x &&& 1#32 ≠ 0#32) ↔ x.reverse.msb = true := by
  rw [← and_msb]
  have e : (0x80000000#32) = (1#32).reverse := by decide +kernel
  have hand : (x &&& 1#32).reverse = x.reverse &&& (1#32).reverse := by
    apply BitVec.eq_of_getLsbD_eq
    intro i hi
    simp only [BitVec.getLsbD_and, rev_bit _ _ hi]
  rw [e, ← hand]
  constructor
  · intro h hc
    apply h
    have := congrArg BitVec.reverse hc
    rw [rev_rev] at this
    rw [this]; decide +kernel
  · intro h hc
    apply h
    rw [hc]; decide +kernel

theorem revBitStep_eq (P x : BitVec 32) :
    revBitStep P x = (z P.reverse x.reverse).reverse := by
  unfold revBitStep z crcBit
  by_cases h : x.reverse.msb = true
  · rw [if_pos ((and_one x).2 h), h, ← rev_shr]
    simp only [Bool.bne_false, if_true, rev_xor, rev_rev, BitVec.xor_comm]
  · rw [if_neg (fun hh => h ((and_one x).1 hh)), ← rev_shr]
    simp only [h, Bool.bne_false, rev_xor, rev_rev]
    have : (0#32).reverse = 0#32 := by decide +kernel
    simp [this]

theorem revTableEntry_eq (P : BitVec 32) (i : Nat) :
    revTableEntry P i = (z8 P.reverse (BitVec.ofNat 32 i).reverse).reverse := by
  simp only [revTableEntry, revBitStep_eq, z8, List.range, List.range.loop, List.foldl_cons,
    List.foldl_nil, rev_rev]

theorem bitsLsb_rev (b : Byte) : bitsLsbFirst b = bitsMsbFirst b.reverse := by
  simp (discharger := omega) only [bitsLsbFirst, bitsMsbFirst, rev_bit, Nat.reduceSub]

theorem byte_rev (b : Byte) : b.reverse.setWidth 32 <<< 24 = (b.setWidth 32).reverse := by
  revert b; decide +kernel

theorem revByte_table (P r : BitVec 32) (b : Byte) :
    revTableEntry P ((r ^^^ b.setWidth 32) &&& 0x000000ff#32).toNat ^^^ (r >>> 8)
      = (crcBits P.reverse r.reverse (bitsLsbFirst b)).reverse := by
  rw [bitsLsb_rev, byte_spec, revTableEntry_eq, BitVec.ofNat_toNat, BitVec.setWidth_eq, byte_rev,
    ← rev_xor]
  have hff : ∀ j : Fin 32, (0x000000ff#32).getLsbD j.1 = decide (j.1 < 8) := by decide
  have hff2 : ∀ j : Fin 32, (0xffffff00#32).getLsbD j.1 = decide (8 ≤ j.1) := by decide
  have e : r ^^^ b.setWidth 32
      = ((r ^^^ b.setWidth 32) &&& 0x000000ff#32) ^^^ (r &&& 0xffffff00#32) := by
    apply BitVec.eq_of_getLsbD_eq
    intro i hi
    have h1 := hff ⟨i, hi⟩
    have h2 := hff2 ⟨i, hi⟩
    simp only at h1 h2
    simp only [BitVec.getLsbD_xor, BitVec.getLsbD_and, h1, h2, BitVec.getLsbD_setWidth]
    by_cases c : i < 8
    · have : ¬ 8 ≤ i := by omega
      simp [c, this]
    · have : 8 ≤ i := by omega
      simp [c, this]
  have l : z8 P.reverse (r &&& 0xffffff00#32).reverse = (r >>> 8).reverse := by
    rw [z8_low]
    · rw [← rev_shr]
      congr 1
      apply BitVec.eq_of_getLsbD_eq
      intro i hi
      simp only [BitVec.getLsbD_ushiftRight, BitVec.getLsbD_and]
      by_cases c : 8 + i < 32
      · have := hff2 ⟨8 + i, c⟩
        simp only at this
        simp [this]
      · rw [BitVec.getLsbD_of_ge _ _ (by omega)]; simp
    · intro i hi
      by_cases hlt : i < 32
      · rw [rev_bit _ _ hlt, BitVec.getLsbD_and]
        have := hff2 ⟨31 - i, by omega⟩
        simp only at this
        have h3 : ¬ 8 ≤ 31 - i := by omega
        simp [this, h3]
      · rw [BitVec.getLsbD_of_ge _ _ (by omega)]
  conv => rhs; rw [e]
  rw [rev_xor (_ &&& _), z8_xor, l, rev_xor, rev_rev]

theorem revUpdateByte_ok (P r : BitVec 32) (b : Byte) :
    revUpdateByte ((List.range 256).map (revTableEntry P)) r b
      = R.ok (crcBits P.reverse r.reverse (bitsLsbFirst b)).reverse := by
  unfold revUpdateByte
  have := idx_lt (r ^^^ b.setWidth 32)
  simp only
  rw [R.get_ok (by simpa using this)]
  simp only [R.ok_bind, R.pure_eq, List.getElem_map, List.getElem_range, revByte_table]

theorem revUpdateBytes_ok (P r : BitVec 32) (bs : List Byte) :
    bs.foldlM (revUpdateByte ((List.range 256).map (revTableEntry P))) r
      = R.ok (crcBits P.reverse r.reverse (bs.flatMap bitsLsbFirst)).reverse := by
  induction bs generalizing r with
  | nil => simp [crcBits]
  | cons b bs ih =>
    rw [List.foldlM_cons, revUpdateByte_ok, R.ok_bind, ih, List.flatMap_cons, rev_rev]
    simp only [crcBits, List.foldl_append]

theorem revUpdate_ok (c : Ctx) (h : Inv revTableEntry c) (data : List Byte) :
    ∃ c', c.revUpdate data = R.ok c' ∧ Inv revTableEntry c' ∧ c'.polynomial = c.polynomial ∧
      c'.initialValue = c.initialValue ∧
      c'.checksum = (crcBits c.polynomial.reverse c.checksum.reverse
        (data.flatMap bitsLsbFirst)).reverse := by
  obtain ⟨P, i, k, t, init⟩ := c
  cases init
  · refine ⟨⟨P, i, (crcBits P.reverse k.reverse (data.flatMap bitsLsbFirst)).reverse,
      (List.range 256).map (revTableEntry P), true⟩, ?_, ⟨by simp, fun _ => rfl⟩, rfl, rfl, rfl⟩
    have hl := h.len
    simp only at hl
    simp only [Ctx.revUpdate, Ctx.revInitializeTable, Bool.not_false, if_true]
    rw [fill_table _ _ _ (by omega)]
    simp only [R.ok_bind, R.pure_eq]
    rw [← hl, List.drop_length, List.append_nil, hl, revUpdateBytes_ok]
    rfl
  · have ht := h.tbl rfl
    simp only at ht
    subst ht
    refine ⟨⟨P, i, (crcBits P.reverse k.reverse (data.flatMap bitsLsbFirst)).reverse,
      (List.range 256).map (revTableEntry P), true⟩, ?_, ⟨by simp, fun _ => rfl⟩, rfl, rfl, rfl⟩
    simp [Ctx.revUpdate, revUpdateBytes_ok]

theorem revUpdates_ok (c : Ctx) (h : Inv revTableEntry c) (chunks : List (List Byte)) :
    ∃ c', chunks.foldlM Ctx.revUpdate c = R.ok c' ∧ Inv revTableEntry c' ∧
      c'.polynomial = c.polynomial ∧ c'.initialValue = c.initialValue ∧
      c'.checksum = (crcBits c.polynomial.reverse c.checksum.reverse
        (chunks.flatten.flatMap bitsLsbFirst)).reverse := by
  induction chunks generalizing c with
  | nil => exact ⟨c, rfl, h, rfl, rfl, by simp [crcBits]⟩
  | cons x xs ih =>
    obtain ⟨c1, h1, h2, h3, h4, h5⟩ := revUpdate_ok c h x
    obtain ⟨c2, g1, g2, g3, g4, g5⟩ := ih c1 h2
    refine ⟨c2, by rw [List.foldlM_cons, h1]; exact g1, g2, by rw [g3, h3], by rw [g4, h4], ?_⟩
    rw [g5, h5, h3, rev_rev]
    simp [crcBits]

end Keramics.Crc32
