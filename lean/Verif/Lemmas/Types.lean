import Verif.Model.Types
import Verif.Spec.Types

namespace Keramics
open Spec

/-! ## Hexadecimal text -/

theorem formatHex_eq {w v : Nat} (hw : 0 < w) (hv : v < 16 ^ w) : formatHex w v = hexDigits w v := by
  unfold formatHex
  rw [Nat.max_eq_left ((Nat.length_toDigits_le_iff (by decide) hw).mpr hv)]

@[simp] theorem hexDigits_length (n v : Nat) : (hexDigits n v).length = n := by
  induction n generalizing v with
  | zero => rfl
  | succ n ih => simp [hexDigits, ih]

theorem hex_facts : ∀ b : Byte, isHexDigit b = true →
    (hexValue b).isSome = true ∧ (hexValue b).getD 0 < 16 ∧ lowerHex ((hexValue b).getD 0) = lower b
      ∧ b.toNat < 0x80 ∧ b ≠ 0x2b#8 ∧ b ≠ 0x2d#8 ∧ b ≠ 0x7b#8 := by decide +kernel

theorem isHexDigit_of_value : ∀ b : Byte, (hexValue b).isSome = true → isHexDigit b = true := by
  decide +kernel

theorem lowerHex_facts (n : Nat) (h : n < 16) :
    isHexDigit (lowerHex n) = true ∧ hexValue (lowerHex n) = some n ∧ lower (lowerHex n) = lowerHex n := by
  have : ∀ n : Fin 16, isHexDigit (lowerHex n.1) = true ∧ hexValue (lowerHex n.1) = some n.1 ∧ lower (lowerHex n.1) = lowerHex n.1 := by
    decide +kernel
  exact this ⟨n, h⟩

/-- Value of a string of hexadecimal digits. -/
def hexFold (acc : Nat) (bs : List Byte) : Nat :=
  bs.foldl (fun a b => a * 16 + (hexValue b).getD 0) acc

theorem hexFold_lt (bs : List Byte) (h : ∀ b ∈ bs, isHexDigit b = true) (acc k : Nat)
    (ha : acc < 16 ^ k) : hexFold acc bs < 16 ^ (k + bs.length) := by
  induction bs generalizing acc k with
  | nil => simpa [hexFold] using ha
  | cons b bs ih =>
    have hb := (hex_facts b (h b List.mem_cons_self)).2.1
    have := ih (fun x hx => h x (List.mem_cons_of_mem _ hx)) (acc * 16 + (hexValue b).getD 0) (k + 1)
      (by rw [Nat.pow_succ]; omega)
    simp only [hexFold, List.foldl_cons, List.length_cons] at this ⊢
    rwa [show k + (bs.length + 1) = k + 1 + bs.length by omega]

theorem parseHexDigits_ok (bits : Nat) (bs : List Byte) (h : ∀ b ∈ bs, isHexDigit b = true)
    (acc k : Nat) (ha : acc < 16 ^ k) (hk : 4 * (k + bs.length) ≤ bits) :
    parseHexDigits bits acc bs = some (hexFold acc bs) := by
  induction bs generalizing acc k with
  | nil => rfl
  | cons b bs ih =>
    obtain ⟨h1, h2, -⟩ := hex_facts b (h b List.mem_cons_self)
    obtain ⟨d, hd⟩ := Option.isSome_iff_exists.mp h1
    rw [hd] at h2
    simp only [List.length_cons] at hk
    have hlt : acc * 16 + d < 16 ^ (k + 1) := by
      simp only [Option.getD_some] at h2
      rw [Nat.pow_succ]; omega
    have hlt2 : acc * 16 + d < 2 ^ bits := by
      refine Nat.lt_of_lt_of_le hlt ?_
      rw [show (16 : Nat) = 2 ^ 4 from rfl, ← Nat.pow_mul]
      exact Nat.pow_le_pow_right (by decide) (by omega)
    unfold parseHexDigits
    simp only [hd, hlt2, if_true]
    rw [ih (fun x hx => h x (List.mem_cons_of_mem _ hx)) _ (k + 1) hlt (by omega)]
    simp [hexFold, hd]

theorem parseHexDigits_some (bits : Nat) (bs : List Byte) (acc v : Nat)
    (h : parseHexDigits bits acc bs = some v) : ∀ b ∈ bs, isHexDigit b = true := by
  induction bs generalizing acc with
  | nil => simp
  | cons b bs ih =>
    unfold parseHexDigits at h
    cases hd : hexValue b with
    | none => rw [hd] at h; cases h
    | some d =>
      rw [hd] at h
      simp only at h
      split at h
      · intro x hx
        rcases List.mem_cons.mp hx with rfl | hx
        · exact isHexDigit_of_value _ (by rw [hd]; rfl)
        · exact ih _ h x hx
      · cases h

theorem fromStrRadix16_ok (bits : Nat) (bs : List Byte) (h : ∀ b ∈ bs, isHexDigit b = true)
    (hne : bs ≠ []) (hk : 4 * bs.length ≤ bits) :
    fromStrRadix16 bits bs = some (hexFold 0 bs) := by
  have hp := parseHexDigits_ok bits bs h 0 0 (by decide) (by omega)
  match bs, hne with
  | [b], _ =>
    have := (hex_facts b (h b List.mem_cons_self)).2.2.2.2
    unfold fromStrRadix16
    simp [this.1, this.2.1, hp]
  | b :: c :: cs, _ =>
    have := (hex_facts b (h b List.mem_cons_self)).2.2.2.2
    unfold fromStrRadix16
    simp [this.1, hp]

theorem fromStrRadix16_some (bits : Nat) (bs : List Byte) (v : Nat) (hplus : 0x2b#8 ∉ bs)
    (h : fromStrRadix16 bits bs = some v) : ∀ b ∈ bs, isHexDigit b = true := by
  match bs with
  | [] => simp
  | [b] =>
    unfold fromStrRadix16 at h
    simp only at h
    split at h
    · cases h
    · exact parseHexDigits_some bits _ 0 v h
  | b :: c :: cs =>
    unfold fromStrRadix16 at h
    have : b ≠ 0x2b#8 := fun e => hplus (e ▸ List.mem_cons_self)
    simp only [this, if_false] at h
    exact parseHexDigits_some bits _ 0 v h

theorem hexDigits_hexFold (bs : List Byte) (h : ∀ b ∈ bs, isHexDigit b = true) :
    hexDigits bs.length (hexFold 0 bs) = bs.map lower := by
  suffices H : ∀ (bs : List Byte), (∀ b ∈ bs, isHexDigit b = true) →
      hexDigits bs.length (hexFold 0 bs.reverse) = bs.reverse.map lower by
    have := H bs.reverse (by simpa using h)
    simpa using this
  intro bs
  induction bs with
  | nil => intro _; rfl
  | cons b bs ih =>
    intro h
    obtain ⟨-, h2, h3, -⟩ := hex_facts b (h b List.mem_cons_self)
    have := ih (fun x hx => h x (List.mem_cons_of_mem _ hx))
    simp only [List.length_cons, List.reverse_cons, hexFold, List.foldl_append, List.foldl_cons,
      List.foldl_nil, hexDigits, List.map_append, List.map_cons, List.map_nil] at this ⊢
    rw [show ∀ x y, y < 16 → (x * 16 + y) / 16 = x from fun x y hy => by omega, this,
      show ∀ x y, y < 16 → (x * 16 + y) % 16 = y from fun x y hy => by omega, h3]
    · exact h2
    · exact h2

theorem hexDigits_hex (n v : Nat) : ∀ b ∈ hexDigits n v, isHexDigit b = true ∧ lower b = b := by
  induction n generalizing v with
  | zero => simp [hexDigits]
  | succ n ih =>
    intro b hb
    simp only [hexDigits, List.mem_append, List.mem_singleton] at hb
    rcases hb with hb | rfl
    · exact ih _ b hb
    · have := lowerHex_facts (v % 16) (by omega); exact ⟨this.1, this.2.2⟩

theorem hexFold_hexDigits (n v acc : Nat) : hexFold acc (hexDigits n v) = acc * 16 ^ n + v % 16 ^ n := by
  induction n generalizing v with
  | zero => simp [hexDigits, hexFold, Nat.mod_one]
  | succ n ih =>
    have h3 := (lowerHex_facts (v % 16) (by omega)).2.1
    simp only [hexDigits, hexFold, List.foldl_append, List.foldl_cons, List.foldl_nil, h3,
      Option.getD_some] at ih ⊢
    rw [ih, Nat.pow_succ, Nat.mul_comm (16 ^ n) 16, Nat.mod_mul]
    have e : acc * (16 * 16 ^ n) = acc * 16 ^ n * 16 := by
      rw [Nat.mul_comm 16, Nat.mul_assoc]
    rw [e]; omega

/-- Digits of the big-endian value are the digits of the bytes. -/
theorem hexDigits_beNat (bs : List Byte) : hexDigits (2 * bs.length) (beNat bs) = bs.flatMap hexByte := by
  suffices H : ∀ bs : List Byte, hexDigits (2 * bs.length) (leNat bs) = bs.reverse.flatMap hexByte by
    have := H bs.reverse
    rw [List.length_reverse, List.reverse_reverse] at this; exact this
  intro bs
  induction bs with
  | nil => rfl
  | cons b bs ih =>
    have hb : [lowerHex (b.toNat / 16), lowerHex (b.toNat % 16)] = hexByte b := by
      revert b; decide +kernel
    have hl := b.isLt
    simp only [List.length_cons, leNat, List.reverse_cons, List.flatMap_append, ← ih,
      List.flatMap_cons, List.flatMap_nil, List.append_nil, ← hb]
    rw [show 2 * (bs.length + 1) = 2 * bs.length + 1 + 1 by omega]
    simp only [hexDigits]
    rw [show (b.toNat + 256 * leNat bs) / 16 / 16 = leNat bs by omega,
      show (b.toNat + 256 * leNat bs) / 16 % 16 = b.toNat / 16 by omega,
      show (b.toNat + 256 * leNat bs) % 16 = b.toNat % 16 by omega]
    simp

/-! ## Slices of ASCII text -/

theorem isCharBoundary_ascii (s : List Byte) (h : ∀ b ∈ s, b.toNat < 0x80) (i : Nat)
    (hi : i ≤ s.length) : isCharBoundary s i = true := by
  unfold isCharBoundary
  rcases Nat.lt_or_ge i s.length with hlt | hge
  · rw [List.getElem?_eq_getElem hlt]
    have := h _ (List.getElem_mem hlt)
    simp; omega
  · rw [List.getElem?_eq_none hge]
    simp; omega

theorem sliceStr_ascii (s : List Byte) (h : ∀ b ∈ s, b.toNat < 0x80) (a b : Nat) (hab : a ≤ b)
    (hb : b ≤ s.length) : sliceStr s a b = .ok ((s.drop a).take (b - a)) := by
  unfold sliceStr
  rw [if_pos ⟨hab, hb, isCharBoundary_ascii s h a (by omega), isCharBoundary_ascii s h b hb⟩]

/-! ## Integers -/

theorem leNat_eq_leValue (bs : List Byte) : leNat bs = leValue bs := by
  induction bs with
  | nil => rfl
  | cons b bs ih =>
    unfold leValue
    rw [List.length_cons, List.range_succ_eq_map, List.map_cons, List.sum_cons, List.map_map]
    simp only [leNat, List.getD_cons_zero, Nat.pow_zero, Nat.mul_one]
    congr 1
    rw [ih, leValue]
    have : ∀ l : List Nat, 256 * (l.map fun i => (bs.getD i 0).toNat * 256 ^ i).sum
        = (l.map ((fun i => ((b :: bs).getD i 0).toNat * 256 ^ i) ∘ Nat.succ)).sum := by
      intro l
      induction l with
      | nil => rfl
      | cons x xs ihx =>
        simp only [List.map_cons, List.sum_cons, Nat.mul_add, ihx, Function.comp_apply,
          Nat.succ_eq_add_one, List.getD_cons_succ, Nat.pow_succ]
        congr 1
        rw [Nat.mul_comm 256, Nat.mul_assoc]
    exact this _

theorem beNat_eq_beValue (bs : List Byte) : beNat bs = beValue bs := by
  rw [beNat, leNat_eq_leValue, leValue, beValue, List.length_reverse]
  have key : ∀ n, ∀ f : Nat → Nat, ((List.range n).map f).sum
      = ((List.range n).map fun i => f (n - 1 - i)).sum := by
    intro n
    induction n with
    | zero => intro f; rfl
    | succ n ih =>
      intro f
      rw [List.range_succ_eq_map, List.map_cons, List.sum_cons, List.map_map, ih,
        ← List.range_succ_eq_map, List.range_succ, List.map_append, List.sum_append]
      simp only [List.map_cons, List.map_nil, List.sum_cons, List.sum_nil, Nat.add_zero,
        Function.comp_apply, Nat.succ_eq_add_one]
      rw [show n + 1 - 1 - n = 0 by omega, Nat.add_comm]
      congr 1
      congr 1
      apply List.map_congr_left
      intro i hi
      rw [List.mem_range] at hi
      rw [show n - 1 - i + 1 = n + 1 - 1 - i by omega]
  rw [key]
  congr 1
  apply List.map_congr_left
  intro i hi
  rw [List.mem_range] at hi
  have : bs.reverse.getD (bs.length - 1 - i) 0 = bs.getD i 0 := by
    simp only [List.getD_eq_getElem?_getD]
    rw [List.getElem?_reverse (by omega), show bs.length - 1 - (bs.length - 1 - i) = i by omega]
  rw [this]

theorem toSigned_spec (n v : Nat) (hn : 0 < n) (hv : v < 2 ^ n) :
    IsTwosComplement n v (toSigned n v) := by
  obtain ⟨k, rfl⟩ : ∃ k, n = k + 1 := ⟨n - 1, by omega⟩
  have hp : (2 : Nat) ^ (k + 1) = 2 * 2 ^ k := by rw [Nat.pow_succ, Nat.mul_comm]
  have hc : ((2 ^ k : Nat) : Int) = (2 : Int) ^ k := by simp
  have hpi : (2 : Int) ^ (k + 1) = 2 * 2 ^ k := by rw [Int.pow_succ, Int.mul_comm]
  unfold IsTwosComplement toSigned
  simp only [Nat.add_sub_cancel]
  generalize hm : (2 : Nat) ^ k = m at *
  rw [← hc] at hpi ⊢
  rw [hpi]
  rw [hp] at hv
  split
  · refine ⟨by omega, by omega, ?_⟩
    rw [Int.emod_eq_of_lt] <;> omega
  · refine ⟨by omega, by omega, ?_⟩
    rw [show ((v : Int) - 2 * m) = v + (2 * m) * (-1) by omega, Int.add_mul_emod_self_left,
      Int.emod_eq_of_lt] <;> omega

end Keramics
