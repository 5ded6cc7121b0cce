import Verif.Base.Tactics
import Verif.Base.Sat
import Verif.Base.Bits
import Verif.Lemmas.Huffman
import Verif.Model.Deflate
import Verif.Spec.Deflate

/-! # The DEFLATE bitstream returns the bits of the data in order -/

namespace Keramics.Deflate
open Keramics.Spec.Deflate Keramics.Huffman

/-- The number a list of bits stands for, least significant bit first. -/
def val : List Bool → Nat
  | [] => 0
  | b :: bs => b.toNat + 2 * val bs

theorem val_append (a b : List Bool) : val (a ++ b) = val a + 2 ^ a.length * val b := by
  induction a with
  | nil => simp [val]
  | cons x a ih =>
    simp only [List.cons_append, val, ih, List.length_cons, Nat.pow_succ]
    ring

theorem val_lt (a : List Bool) : val a < 2 ^ a.length := by
  induction a with
  | nil => simp [val]
  | cons x a ih =>
    simp only [val, List.length_cons, Nat.pow_succ]
    have : x.toNat ≤ 1 := by cases x <;> simp
    omega

theorem val_inj {a b : List Bool} (hl : a.length = b.length) (hv : val a = val b) : a = b := by
  induction a generalizing b with
  | nil => cases b with
    | nil => rfl
    | cons => simp at hl
  | cons x a ih =>
    cases b with
    | nil => simp at hl
    | cons y b =>
      simp only [val] at hv
      have hx : x = y ∧ val a = val b := by
        cases x <;> cases y <;> simp at hv ⊢ <;> omega
      rw [hx.1, ih (by simpa using hl) hx.2]

@[simp] theorem lsb_length (k v : Nat) : (lsb k v).length = k := by
  induction k generalizing v with
  | zero => rfl
  | succ k ih => simp [lsb, ih]

theorem val_lsb (k v : Nat) : val (lsb k v) = v % 2 ^ k := by
  induction k generalizing v with
  | zero => simp [lsb, val, Nat.mod_one]
  | succ k ih =>
    simp only [lsb, val, ih]
    rw [Nat.pow_succ', Nat.mod_mul]
    by_cases h : v % 2 = 1
    · simp [h]
    · simp [h]; omega

theorem val_lsb_of_lt {k v : Nat} (h : v < 2 ^ k) : val (lsb k v) = v := by
  rw [val_lsb, Nat.mod_eq_of_lt h]

theorem byteBits_cons (b : Byte) (data : List Byte) : byteBits (b :: data) = lsb 8 b.toNat ++ byteBits data := rfl

theorem byteBits_append (a b : List Byte) : byteBits (a ++ b) = byteBits a ++ byteBits b := by
  simp [byteBits]

@[simp] theorem byteBits_length (data : List Byte) : (byteBits data).length = 8 * data.length := by
  induction data with
  | nil => rfl
  | cons b data ih => rw [byteBits_cons, List.length_append, ih, lsb_length, List.length_cons]; omega

theorem val_byteBits (data : List Byte) : val (byteBits data) = leNat data := by
  induction data with
  | nil => rfl
  | cons b data ih =>
    rw [byteBits_cons, val_append, val_lsb_of_lt b.isLt, lsb_length, ih, leNat]; rfl

theorem byteBits_prefix {data bytes : List Byte} {rest : List Bool} (h : byteBits data = byteBits bytes ++ rest) :
    data = bytes ++ data.drop bytes.length := by
  induction bytes generalizing data with
  | nil => simp
  | cons b bytes ih =>
    cases data with
    | nil =>
      have := congrArg List.length h
      simp [byteBits_cons] at this
      omega
    | cons d data =>
      rw [byteBits_cons, byteBits_cons, List.append_assoc] at h
      obtain ⟨h1, h2⟩ := List.append_inj h (by simp)
      have : d = b := by
        apply BitVec.eq_of_toNat_eq
        have := congrArg val h1
        rwa [val_lsb_of_lt d.isLt, val_lsb_of_lt b.isLt] at this
      rw [this]
      simp only [List.cons_append, List.length_cons, List.drop_succ_cons]
      rw [← ih h2]

/-! ## The reader -/

/-- The bits not yet read. -/
def rem (data : List Byte) (s : Bs) : List Bool := lsb s.n s.bits ++ byteBits (data.drop s.off)

/-- The same as a number, followed by zeros for ever. -/
def V (data : List Byte) (s : Bs) : Nat := s.bits + 2 ^ s.n * leNat (data.drop s.off)

/-- The number of bits not yet read. -/
def L (data : List Byte) (s : Bs) : Nat := s.n + 8 * (data.length - s.off)

structure Inv (data : List Byte) (s : Bs) : Prop where
  bits : s.bits < 2 ^ s.n
  small : s.n ≤ 7
  off : s.off ≤ data.length

theorem rem_length (data : List Byte) (s : Bs) : (rem data s).length = L data s := by
  simp [rem, L]

theorem val_rem {data : List Byte} {s : Bs} (h : s.bits < 2 ^ s.n) : val (rem data s) = V data s := by
  rw [rem, val_append, val_lsb_of_lt h, lsb_length, val_byteBits]; rfl

theorem readData_ok (data : List Byte) (need fuel : Nat) (s : Bs) (hb : s.bits < 2 ^ s.n)
    (ho : s.off ≤ data.length) (h24 : need ≤ 24) (hf : need ≤ s.n + 8 * fuel) :
    ∃ s', readData data need fuel s = .ok s' ∧ s'.bits < 2 ^ s'.n ∧ s.off ≤ s'.off ∧ s'.off ≤ data.length ∧
      need ≤ s'.n ∧ (s'.n ≤ need + 7 ∨ s'.n = s.n) ∧ V data s' = V data s ∧
      (L data s' = L data s ∨ (s'.off = data.length ∧ L data s < need)) := by
  induction fuel generalizing s with
  | zero =>
    unfold readData
    rw [if_neg (by omega)]
    exact ⟨s, rfl, hb, Nat.le_refl _, ho, by omega, Or.inr rfl, rfl, Or.inl rfl⟩
  | succ fuel ih =>
    unfold readData
    by_cases h : s.n < need
    · rw [if_pos h]
      simp only
      by_cases h1 : s.off < data.length
      · rw [if_pos h1, R.get_ok h1, R.ok_bind, R.check_true (by omega), R.ok_bind]
        have hd := data[s.off].isLt
        have hp : data[s.off].toNat <<< s.n < 2 ^ (s.n + 8) := by
          rw [Nat.shiftLeft_eq, Nat.pow_add, Nat.mul_comm]
          exact Nat.mul_lt_mul_of_pos_left hd (Nat.two_pow_pos _)
        have hp2 : (2 : Nat) ^ (s.n + 8) ≤ 2 ^ 32 := Nat.pow_le_pow_right (by omega) (by omega)
        have hbits : s.bits ||| ((data[s.off].toNat <<< s.n) % 2 ^ 32) = data[s.off].toNat * 2 ^ s.n + s.bits := by
          rw [Nat.mod_eq_of_lt (by omega), Nat.or_comm, shl_or hb]
        rw [hbits]
        have hlt : data[s.off].toNat * 2 ^ s.n + s.bits < 2 ^ (s.n + 8) := by
          rw [Nat.pow_add]
          calc data[s.off].toNat * 2 ^ s.n + s.bits < data[s.off].toNat * 2 ^ s.n + 2 ^ s.n := by omega
            _ = (data[s.off].toNat + 1) * 2 ^ s.n := by ring
            _ ≤ 2 ^ 8 * 2 ^ s.n := Nat.mul_le_mul_right _ hd
            _ = 2 ^ s.n * 2 ^ 8 := Nat.mul_comm _ _
        obtain ⟨s', e, g1, g2, g3, g4, g5, g6, g7⟩ :=
          ih ⟨s.off + 1, data[s.off].toNat * 2 ^ s.n + s.bits, s.n + 8⟩ hlt h1 (by simp only; omega)
        simp only at g2 g5
        refine ⟨s', e, g1, by omega, g3, g4, Or.inl (by omega), ?_, ?_⟩
        · rw [g6]
          unfold V
          simp only
          rw [List.drop_eq_getElem_cons h1, leNat, Nat.pow_add]
          ring
        · unfold L at g7 ⊢
          simp only at g7 ⊢
          omega
      · rw [if_neg h1]
        obtain ⟨s', e, g1, g2, g3, g4, g5, g6, g7⟩ := ih { s with n := s.n + 8 }
          (Nat.lt_of_lt_of_le hb (Nat.pow_le_pow_right (by omega) (by simp))) ho (by simp only; omega)
        simp only at g2 g5
        refine ⟨s', e, g1, g2, g3, g4, Or.inl (by omega), ?_, Or.inr ⟨by omega, ?_⟩⟩
        · rw [g6]
          unfold V
          simp only
          rw [List.drop_eq_nil_of_le (by omega)]
          simp [leNat]
        · unfold L; omega
    · rw [if_neg h]
      exact ⟨s, rfl, hb, Nat.le_refl _, ho, by omega, Or.inr rfl, rfl, Or.inl rfl⟩

theorem getLoop_ok (data : List Byte) (k : Nat) (hk : k ≤ 32) (fuel bo value : Nat) (s : Bs)
    (hi : Inv data s) (hf : k ≤ bo + fuel) (hv : value < 2 ^ bo) (hbo : bo ≤ k) :
    ∃ s', getLoop data k fuel bo value s = .ok (value + 2 ^ bo * (V data s % 2 ^ (k - bo)), s') ∧
      Inv data s' ∧ s.off ≤ s'.off ∧ V data s' = V data s / 2 ^ (k - bo) ∧
      (L data s' + (k - bo) = L data s ∨ (s'.off = data.length ∧ L data s < k - bo)) := by
  induction fuel generalizing bo value s with
  | zero =>
    unfold getLoop
    have : bo = k := by omega
    subst this
    rw [if_neg (by omega)]
    refine ⟨s, ?_, hi, Nat.le_refl _, by simp, Or.inl (by omega)⟩
    simp [Nat.mod_one]
  | succ fuel ih =>
    unfold getLoop
    by_cases h : bo < k
    · rw [if_pos h]
      simp only
      generalize hsz : (if k - bo > 24 then 24 else k - bo) = size
      have hs1 : size ≤ 24 ∧ 1 ≤ size ∧ size ≤ k - bo := by
        rw [← hsz]; split <;> omega
      obtain ⟨s1, e, g1, g2, g3, g4, g5, g6, g7⟩ : ∃ s', ensure data size s
          = .ok s' ∧ s'.bits < 2 ^ s'.n ∧ s.off ≤ s'.off ∧ s'.off ≤ data.length ∧
          size ≤ s'.n ∧ s'.n ≤ size + 7 ∧ V data s' = V data s ∧
          (L data s' = L data s ∨ (s'.off = data.length ∧ L data s < size)) := by
        unfold ensure
        by_cases hn : s.n < size
        · rw [if_pos hn]
          obtain ⟨s', e, g1, g2, g3, g4, g5, g6, g7⟩ :=
            readData_ok data size size s hi.bits hi.off hs1.1 (by omega)
          exact ⟨s', e, g1, g2, g3, g4, by omega, g6, g7⟩
        · rw [if_neg hn]
          have := hi.small
          exact ⟨s, rfl, hi.bits, Nat.le_refl _, hi.off, by omega, by omega, rfl, Or.inl rfl⟩
      rw [e, R.ok_bind, R.subU_ok g4, R.ok_bind, R.check_true (by omega), R.ok_bind]
      have hpow : (2 : Nat) ^ s1.n = 2 ^ size * 2 ^ (s1.n - size) := by
        rw [← Nat.pow_add]; congr 1; omega
      have hV : V data s = s1.bits + 2 ^ size * (2 ^ (s1.n - size) * leNat (data.drop s1.off)) := by
        rw [← g6, V, hpow]; ring
      have hmod : V data s % 2 ^ size = s1.bits % 2 ^ size := by
        rw [hV, Nat.add_mul_mod_self_left]
      have hi1 : Inv data ⟨s1.off, s1.bits >>> size, s1.n - size⟩ := by
        refine ⟨?_, by simp only; omega, g3⟩
        simp only
        rw [Nat.shiftRight_eq_div_pow]
        apply Nat.div_lt_of_lt_mul
        rw [← hpow]; exact g1
      have hV1 : V data ⟨s1.off, s1.bits >>> size, s1.n - size⟩ = V data s / 2 ^ size := by
        rw [hV, Nat.add_mul_div_left _ _ (Nat.two_pow_pos _)]
        simp only [V, Nat.shiftRight_eq_div_pow]
      have hvv : (if bo > 0 then ((s1.bits &&& (2 ^ size - 1)) <<< bo) % 2 ^ 32 else s1.bits &&& (2 ^ size - 1))
          = (V data s % 2 ^ size) <<< bo := by
        rw [Nat.and_two_pow_sub_one_eq_mod, hmod]
        split
        · apply Nat.mod_eq_of_lt
          rw [Nat.shiftLeft_eq]
          have h1 : s1.bits % 2 ^ size < 2 ^ size := Nat.mod_lt _ (Nat.two_pow_pos _)
          calc s1.bits % 2 ^ size * 2 ^ bo < 2 ^ size * 2 ^ bo := Nat.mul_lt_mul_of_pos_right h1 (Nat.two_pow_pos _)
            _ = 2 ^ (size + bo) := by rw [Nat.pow_add]
            _ ≤ 2 ^ 32 := Nat.pow_le_pow_right (by omega) (by omega)
        · rw [show bo = 0 by omega]; simp
      rw [hvv]
      have hor : value ||| (V data s % 2 ^ size) <<< bo = value + 2 ^ bo * (V data s % 2 ^ size) := by
        rw [Nat.or_comm, shl_or hv]; ring
      rw [hor]
      have hlt : value + 2 ^ bo * (V data s % 2 ^ size) < 2 ^ (bo + size) := by
        have h1 : V data s % 2 ^ size < 2 ^ size := Nat.mod_lt _ (Nat.two_pow_pos _)
        rw [Nat.pow_add]
        calc value + 2 ^ bo * (V data s % 2 ^ size) < 2 ^ bo + 2 ^ bo * (V data s % 2 ^ size) := by omega
          _ = 2 ^ bo * (V data s % 2 ^ size + 1) := by ring
          _ ≤ 2 ^ bo * 2 ^ size := Nat.mul_le_mul_left _ h1
      obtain ⟨s', e', q1, q2, q3, q4⟩ := ih (bo + size) _ _ hi1 (by omega) hlt (by omega)
      refine ⟨s', ?_, q1, Nat.le_trans g2 q2, ?_, ?_⟩
      · rw [e', hV1]
        congr 2
        rw [show k - bo = size + (k - (bo + size)) by omega, Nat.pow_add (m := size), Nat.mod_mul, Nat.pow_add]
        ring
      · rw [q3, hV1, Nat.div_div_eq_div_mul, ← Nat.pow_add]
        congr 2
        omega
      · have hL : L data ⟨s1.off, s1.bits >>> size, s1.n - size⟩ + size = L data s1 := by
          unfold L; simp only; omega
        have hLn : L data ⟨s1.off, s1.bits >>> size, s1.n - size⟩ ≥ 0 := Nat.zero_le _
        simp only at q2
        rcases g7 with g7 | ⟨g7, g8⟩
        · rcases q4 with q4 | ⟨q4, q5⟩
          · left; omega
          · right; exact ⟨q4, by omega⟩
        · right
          exact ⟨by have := q1.off; omega, by omega⟩
    · rw [if_neg h]
      have : bo = k := by omega
      subst this
      refine ⟨s, ?_, hi, Nat.le_refl _, by simp, Or.inl (by omega)⟩
      simp [Nat.mod_one]

theorem getValue_ok (data : List Byte) (k : Nat) (hk : k ≤ 32) (s : Bs) (hi : Inv data s) :
    ∃ s', getValue data k s = .ok (V data s % 2 ^ k, s') ∧ Inv data s' ∧ s.off ≤ s'.off ∧
      V data s' = V data s / 2 ^ k ∧
      (L data s' + k = L data s ∨ (s'.off = data.length ∧ L data s < k)) := by
  obtain ⟨s', e, h1, h2, h3, h4⟩ := getLoop_ok data k hk k 0 0 s hi (by omega) (by simp) (by omega)
  refine ⟨s', ?_, h1, h2, by simpa using h3, by simpa using h4⟩
  unfold getValue
  rw [e]
  simp

/-- Reading bits that are there. -/
theorem getValue_rem {data : List Byte} {s : Bs} (hi : Inv data s) {bs rest : List Bool} (hk : bs.length ≤ 32)
    (h : rem data s = bs ++ rest) :
    ∃ s', getValue data bs.length s = .ok (val bs, s') ∧ Inv data s' ∧ rem data s' = rest := by
  obtain ⟨s', e, h1, h2, h3, h4⟩ := getValue_ok data bs.length hk s hi
  have hV : V data s = val bs + 2 ^ bs.length * val rest := by
    rw [← val_rem hi.bits, h, val_append]
  have hL : L data s = bs.length + rest.length := by
    rw [← rem_length, h, List.length_append]
  refine ⟨s', ?_, h1, ?_⟩
  · rw [e, hV, Nat.add_mul_mod_self_left, Nat.mod_eq_of_lt (val_lt bs)]
  · apply val_inj
    · rw [rem_length]; omega
    · rw [val_rem h1.bits, h3, hV, Nat.add_mul_div_left _ _ (Nat.two_pow_pos _),
        Nat.div_eq_of_lt (val_lt bs), Nat.zero_add]

theorem getValue_lsb {data : List Byte} {s : Bs} (hi : Inv data s) {k v : Nat} {rest : List Bool} (hk : k ≤ 32)
    (hv : v < 2 ^ k) (h : rem data s = lsb k v ++ rest) :
    ∃ s', getValue data k s = .ok (v, s') ∧ Inv data s' ∧ rem data s' = rest := by
  obtain ⟨s', e, h1, h2⟩ := getValue_rem hi (by simpa using hk) h
  rw [lsb_length, val_lsb_of_lt hv] at e
  exact ⟨s', e, h1, h2⟩

theorem reads_of_rem {data : List Byte} (bs : List Bool) {s : Bs} (hi : Inv data s) {rest : List Bool}
    (h : rem data s = bs ++ rest) :
    ∃ s', Reads (getBit data) s bs s' ∧ Inv data s' ∧ rem data s' = rest := by
  induction bs generalizing s with
  | nil => exact ⟨s, .nil _, hi, h⟩
  | cons b bs ih =>
    obtain ⟨s1, e, h1, h2⟩ := getValue_rem (bs := [b]) (rest := bs ++ rest) hi (by simp) (by simpa using h)
    obtain ⟨s', e', h3, h4⟩ := ih h1 h2
    refine ⟨s', .cons (st1 := s1) ?_ e', h3, h4⟩
    unfold getBit
    rw [List.length_singleton] at e
    rw [e]
    simp [val]

theorem symbol_of_rem {data : List Byte} {t : Tree} {ls : List Nat} (ht : IsTree t ls) {sym : Nat}
    (hc : Spec.Huffman.Coded ls sym) {s : Bs} (hi : Inv data s) {rest : List Bool}
    (h : rem data s = Spec.Huffman.codeBits ls sym ++ rest) :
    ∃ s', decodeSymbol (getBit data) t s = .ok (sym, s') ∧ Inv data s' ∧ rem data s' = rest := by
  obtain ⟨s', e, h1, h2⟩ := reads_of_rem _ hi h
  exact ⟨s', decode_ok _ ht hc e, h1, h2⟩

/-- What every operation on the bitstream keeps: the bits left do not grow, unless the data is at its
end. -/
structure Inv' (data : List Byte) (l : Nat) (s : Bs) : Prop extends Inv data s where
  left : s.off = data.length ∨ L data s ≤ l

theorem getValue_sat (data : List Byte) (k l : Nat) (hk : k ≤ 32) (s : Bs) (hi : Inv' data l s) :
    R.Sat (getValue data k s) fun r => r.1 < 2 ^ k ∧ Inv' data l r.2 := by
  obtain ⟨s', e, h1, h2, h3, h4⟩ := getValue_ok data k hk s hi.toInv
  rw [e]
  refine R.sat_ok ⟨Nat.mod_lt _ (Nat.two_pow_pos _), h1, ?_⟩
  have := h1.off
  rcases hi.left with h | h
  · left; simp only; omega
  · rcases h4 with h4 | h4
    · right; simp only; omega
    · left; exact h4.1

theorem symbol_sat (data : List Byte) (l : Nat) {t : Tree} {ls : List Nat} (ht : IsTree t ls) (s : Bs)
    (hi : Inv' data l s) :
    R.Sat (decodeSymbol (getBit data) t s) fun r => r.1 < ls.length ∧ Inv' data l r.2 := by
  refine R.Sat.mono (decode_sat (getBit data) (Inv' data l) (fun st h => ?_) ht s hi) ?_
  · exact getValue_sat data 1 l (by omega) st h
  · rintro r ⟨h1, _, h3⟩
    exact ⟨coded_lt h1, h3⟩

end Keramics.Deflate
