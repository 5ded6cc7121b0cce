import Verif.Lemmas.Bzip2Bits
import Verif.Model.Lzfse
import Verif.Spec.Lzfse

/-! # The LZFSE bit stream returns the bits of the data from the end to the start -/

namespace Keramics.Lzfse
open Keramics.Spec.Huffman
open Keramics.Spec.Lzfse (backBits)
open Keramics.Bzip2 (bits_length bits_add bits_mod bits_join bits_inj bits_zero)

theorem backBits_snoc (data : List Byte) (b : Byte) : backBits (data ++ [b]) = bits 8 b.toNat ++ backBits data := by
  simp [backBits]

theorem backBits_append (a b : List Byte) : backBits (a ++ b) = backBits b ++ backBits a := by
  simp [backBits]

theorem backBits_length (data : List Byte) : (backBits data).length = 8 * data.length := by
  induction data with
  | nil => rfl
  | cons b data ih =>
    rw [← List.singleton_append, backBits_append, List.length_append, ih]
    simp [backBits, bits_length]; omega

/-- The bits not yet read. -/
def rem (data : List Byte) (s : Bs) : List Bool := bits s.n s.bits ++ backBits (data.take s.off)

structure Inv (data : List Byte) (s : Bs) : Prop where
  bits : s.bits < 2 ^ s.n
  small : s.n ≤ 7
  off : s.off ≤ data.length

theorem push_ok {data : List Byte} {s : Bs} (hb : s.bits < 2 ^ s.n) (hn : s.n < 24) (ho : s.off ≤ data.length)
    (hl : s.n < (rem data s).length) :
    (push data s).bits < 2 ^ (push data s).n ∧ (push data s).n = s.n + 8 ∧ (push data s).off ≤ data.length ∧
      rem data (push data s) = rem data s := by
  have hoff : 0 < s.off := by
    simp only [rem, List.length_append, bits_length, backBits_length, List.length_take] at hl
    omega
  have h32 : s.bits * 2 ^ 8 + 255 < 2 ^ (s.n + 8) := by
    rw [Nat.pow_add]
    generalize 2 ^ s.n = x at *
    omega
  have h33 : 2 ^ (s.n + 8) ≤ 2 ^ 32 := Nat.pow_le_pow_right (by omega) (by omega)
  obtain ⟨x, hx⟩ : ∃ x, x = data.getD (s.off - 1) 0 := ⟨_, rfl⟩
  have hxl := x.isLt
  have e : (push data s) = ⟨s.off - 1, s.bits * 2 ^ 8 + x.toNat, s.n + 8⟩ := by
    unfold push
    rw [if_pos hoff, ← hx, Nat.shiftLeft_eq, Nat.mod_eq_of_lt (Nat.lt_of_lt_of_le (Nat.lt_of_le_of_lt (Nat.le_add_right _ 255) h32) h33), ← Nat.shiftLeft_eq, shl_or (by omega), Nat.shiftLeft_eq]
  rw [e]
  refine ⟨by simp only; omega, rfl, by simp only; omega, ?_⟩
  unfold rem
  simp only
  rw [bits_join (by omega), List.append_assoc]
  congr 1
  have et : data.take s.off = data.take (s.off - 1) ++ [x] := by
    have hlt : s.off - 1 < data.length := by omega
    rw [hx, List.getD_eq_getElem?_getD, List.getElem?_eq_getElem hlt, Option.getD_some]
    conv => lhs; rw [show s.off = s.off - 1 + 1 by omega]
    rw [List.take_succ_eq_append_getElem hlt]
  rw [et, backBits_snoc]

theorem readData_ok {data : List Byte} {need : Nat} (h24 : need ≤ 24) (fuel : Nat) {s : Bs} (hb : s.bits < 2 ^ s.n)
    (ho : s.off ≤ data.length) (hl : need ≤ (rem data s).length) (hf : need ≤ s.n + 8 * fuel) (hn : s.n ≤ 31) :
    (readData data need fuel s).bits < 2 ^ (readData data need fuel s).n ∧ need ≤ (readData data need fuel s).n ∧
      (readData data need fuel s).n ≤ max s.n (need + 7) ∧
      (readData data need fuel s).off ≤ data.length ∧ rem data (readData data need fuel s) = rem data s := by
  induction fuel generalizing s with
  | zero =>
    unfold readData
    exact ⟨hb, by omega, by omega, ho, rfl⟩
  | succ fuel ih =>
    unfold readData
    by_cases h : need > s.n
    · rw [if_pos h]
      obtain ⟨p1, p2, p3, p4⟩ := push_ok hb (by omega) ho (by omega)
      obtain ⟨q1, q2, q3, q4, q5⟩ := ih p1 p3 (by rw [p4]; exact hl) (by omega) (by omega)
      exact ⟨q1, q2, by omega, q4, by rw [q5, p4]⟩
    · rw [if_neg h]
      exact ⟨hb, by omega, by omega, ho, rfl⟩

theorem part_ok {data : List Byte} {size v : Nat} {r : List Bool} (h24 : size ≤ 24) {s : Bs} (h : Inv data s)
    (hv : v < 2 ^ size) (hr : rem data s = bits size v ++ r) :
    (part data size s).1 = v ∧ Inv data (part data size s).2 ∧ rem data (part data size s).2 = r := by
  have hlen : size ≤ (rem data s).length := by rw [hr, List.length_append, bits_length]; omega
  have hsm := h.small
  obtain ⟨q1, q2, q3, q4, q5⟩ := readData_ok h24 3 h.bits h.off hlen (by omega) (by omega)
  generalize ht : readData data size 3 s = t at *
  obtain ⟨j, hj⟩ : ∃ j, t.n = size + j := ⟨t.n - size, by omega⟩
  have hrem : bits size (t.bits / 2 ^ j) ++ (bits j (t.bits % 2 ^ j) ++ backBits (data.take t.off)) = bits size v ++ r := by
    rw [← hr, ← q5, rem, hj, ← List.append_assoc, bits_mod _ _ _ (Nat.le_refl _), ← bits_add]
  have e := List.append_inj hrem (by rw [bits_length, bits_length])
  have hq : t.bits / 2 ^ j < 2 ^ size := by
    rw [Nat.div_lt_iff_lt_mul (Nat.two_pow_pos _), ← Nat.pow_add, ← hj]; exact q1
  have hvv := bits_inj hq hv e.1
  unfold part
  simp only [ht]
  by_cases h0 : t.n - size = 0
  · rw [if_pos h0]
    have : j = 0 := by omega
    subst this
    simp only [Nat.pow_zero, Nat.div_one] at hvv
    refine ⟨hvv, ⟨by simp, by simp, q4⟩, ?_⟩
    rw [← e.2]
    simp [rem, bits]
  · rw [if_neg h0]
    have ej : t.n - size = j := by omega
    have em : t.bits &&& (0xffffffff >>> (32 - j)) = t.bits % 2 ^ j := by
      rw [show (0xffffffff : Nat) = 2 ^ 32 - 1 from rfl]
      have : (2 ^ 32 - 1) >>> (32 - j) = 2 ^ j - 1 := by
        have hj7 : j ≤ 7 := by omega
        have h8 : j = 0 ∨ j = 1 ∨ j = 2 ∨ j = 3 ∨ j = 4 ∨ j = 5 ∨ j = 6 ∨ j = 7 := by omega
        rcases h8 with rfl | rfl | rfl | rfl | rfl | rfl | rfl | rfl <;> rfl
      rw [this, Nat.and_two_pow_sub_one_eq_mod]
    rw [ej]
    refine ⟨by rw [Nat.shiftRight_eq_div_pow]; exact hvv, ⟨by simp only; rw [em]; exact Nat.mod_lt _ (Nat.two_pow_pos _), by simp only; omega, q4⟩, ?_⟩
    rw [← e.2]
    simp only [rem, em]

theorem getValue_ok {data : List Byte} {size v : Nat} {r : List Bool} (h24 : size ≤ 24) {s : Bs} (h : Inv data s)
    (hv : v < 2 ^ size) (hr : rem data s = bits size v ++ r) :
    ∃ s', getValue data size s = (v, s') ∧ Inv data s' ∧ rem data s' = r := by
  unfold getValue
  by_cases h0 : size = 0
  · subst h0
    rw [if_pos rfl]
    have : v = 0 := by simpa using hv
    subst this
    exact ⟨s, rfl, h, by simpa [bits] using hr⟩
  · rw [if_neg h0, if_pos h24]
    obtain ⟨a, b, c⟩ := part_ok h24 h hv hr
    exact ⟨_, by rw [← a], b, c⟩

/-- Skipping bits. -/
theorem skip_ok {data : List Byte} {size : Nat} {a r : List Bool} (h24 : size ≤ 24) {s : Bs} (h : Inv data s)
    (ha : a.length = size) (hr : rem data s = a ++ r) :
    Inv data (getValue data size s).2 ∧ rem data (getValue data size s).2 = r := by
  have key : ∀ (a : List Bool), ∃ v, v < 2 ^ a.length ∧ a = bits a.length v := by
    intro a
    induction a with
    | nil => exact ⟨0, by simp, rfl⟩
    | cons b a ih =>
      obtain ⟨v, hv, e⟩ := ih
      refine ⟨b.toNat * 2 ^ a.length + v, ?_, ?_⟩
      · rw [List.length_cons, Nat.pow_succ]
        have := Bool.toNat_le b
        rcases Bool.eq_false_or_eq_true b with rfl | rfl <;> simp <;> omega
      · rw [List.length_cons, Nat.add_comm, bits_join hv, ← e]
        cases b <;> simp [bits]
  obtain ⟨v, hv, e⟩ := key a
  obtain ⟨s', e1, e2, e3⟩ := getValue_ok (data := data) (size := size) (v := v) (r := r) h24 h (by rw [← ha]; exact hv) (by rw [hr, ← ha, ← e])
  rw [e1]; exact ⟨e2, e3⟩

end Keramics.Lzfse
