import Verif.Base.Tactics
import Verif.Base.Sat
import Verif.Base.Bits
import Verif.Lemmas.Huffman
import Verif.Model.Bzip2
import Verif.Spec.Bzip2

/-! # The bzip2 bit stream returns the bits of the data in order -/

namespace Keramics.Bzip2
open Keramics.Spec.Bzip2 Keramics.Spec.Huffman Keramics.Huffman

@[simp] theorem bits_length (k v : Nat) : (bits k v).length = k := by
  induction k with
  | zero => rfl
  | succ k ih => simp [bits, ih]

theorem bits_add (a b v : Nat) : bits (a + b) v = bits a (v / 2 ^ b) ++ bits b v := by
  induction a with
  | zero => simp [bits]
  | succ a ih =>
    rw [show a + 1 + b = (a + b) + 1 by omega]
    simp only [bits, ih, List.cons_append]
    rw [Nat.div_div_eq_div_mul, ← Nat.pow_add, Nat.add_comm b a]

theorem bits_mod (k m v : Nat) (h : k ≤ m) : bits k (v % 2 ^ m) = bits k v := by
  induction k with
  | zero => rfl
  | succ k ih =>
    simp only [bits]
    rw [ih (by omega)]
    congr 2
    obtain ⟨d, rfl⟩ : ∃ d, m = k + (d + 1) := ⟨m - k - 1, by omega⟩
    rw [Nat.pow_add, Nat.mod_mul_right_div_self, Nat.pow_succ', Nat.mod_mul_right_mod]

/-- A number in front of another. -/
theorem bits_join {a b x y : Nat} (hy : y < 2 ^ b) : bits (a + b) (x * 2 ^ b + y) = bits a x ++ bits b y := by
  rw [bits_add]
  congr 1
  · congr 1
    rw [Nat.mul_comm, Nat.mul_add_div (Nat.two_pow_pos _), Nat.div_eq_of_lt hy]; rfl
  · rw [← bits_mod b b (x * 2 ^ b + y) (Nat.le_refl _), Nat.mul_comm, Nat.mul_add_mod, Nat.mod_eq_of_lt hy]

theorem bits_inj {k v w : Nat} (hv : v < 2 ^ k) (hw : w < 2 ^ k) (h : bits k v = bits k w) : v = w := by
  induction k generalizing v w with
  | zero => omega
  | succ k ih =>
    have e1 := bits_add k 1 v
    have e2 := bits_add k 1 w
    rw [h, e2] at e1
    obtain ⟨h1, h2⟩ := List.append_inj e1 (by simp)
    have h3 := ih (v := w / 2 ^ 1) (w := v / 2 ^ 1) (by rw [Nat.pow_succ] at hw; omega) (by rw [Nat.pow_succ] at hv; omega) h1
    simp only [bits, Nat.pow_zero, Nat.div_one, List.cons.injEq, and_true, decide_eq_decide] at h2
    omega

theorem bits_zero (k : Nat) : bits k 0 = List.replicate k false := by
  induction k with
  | zero => rfl
  | succ k ih => simp [bits, ih, List.replicate_succ]

theorem byteBits_cons (b : Byte) (data : List Byte) : byteBits (b :: data) = bits 8 b.toNat ++ byteBits data := rfl

@[simp] theorem byteBits_length (data : List Byte) : (byteBits data).length = 8 * data.length := by
  induction data with
  | nil => rfl
  | cons b data ih => rw [byteBits_cons, List.length_append, ih, bits_length, List.length_cons]; omega

/-! ## The reader -/

/-- The bits not yet read. -/
def rem (data : List Byte) (s : Bs) : List Bool := bits s.n s.bits ++ byteBits (data.drop s.off)

structure Inv (data : List Byte) (s : Bs) : Prop where
  bits : s.bits < 2 ^ s.n
  small : s.n ≤ 31
  off : s.off ≤ data.length

theorem rem_length {data : List Byte} (s : Bs) : (rem data s).length = s.n + 8 * (data.length - s.off) := by
  simp [rem]

/-- From `s`, reading the lowest `k` bits of `v` leads to `s'`; zeros follow the data. -/
def Took (data : List Byte) (s : Bs) (bs : List Bool) (s' : Bs) : Prop :=
  Inv data s' ∧ s.off ≤ s'.off ∧ ∃ pad, rem data s ++ List.replicate pad false = bs ++ rem data s' ∧ (bs.length ≤ (rem data s).length → pad = 0)

theorem Took.refl {data : List Byte} {s : Bs} (h : Inv data s) : Took data s [] s :=
  ⟨h, Nat.le_refl _, 0, by simp, fun _ => rfl⟩

theorem Took.trans {data : List Byte} {s t u : Bs} {a b : List Bool} (h1 : Took data s a t) (h2 : Took data t b u) : Took data s (a ++ b) u := by
  obtain ⟨i1, o1, p, e1, z1⟩ := h1
  obtain ⟨i2, o2, q, e2, z2⟩ := h2
  refine ⟨i2, by omega, p + q, ?_, ?_⟩
  · rw [← List.replicate_append_replicate, ← List.append_assoc, e1, List.append_assoc, e2, List.append_assoc]
  · intro h
    rw [List.length_append] at h
    have hp := z1 (by omega)
    subst hp
    simp only [List.replicate_zero, List.append_nil] at e1
    have := congrArg List.length e1
    rw [List.length_append] at this
    have hq := z2 (by omega)
    omega

theorem shl8_or (x y : Nat) (hy : y < 256) : x <<< 8 ||| y = x * 2 ^ 8 + y := by
  rw [shl_or (k := 8) (by omega)]

theorem readByte_spec {data : List Byte} {s : Bs} (h : Inv data s) (hn : s.n ≤ 23) :
    Inv data (readByte data s) ∧ (readByte data s).n = s.n + 8 ∧ s.off ≤ (readByte data s).off ∧
    ((s.off < data.length ∧ (readByte data s).off = s.off + 1 ∧ rem data (readByte data s) = rem data s) ∨
      (s.off = data.length ∧ rem data (readByte data s) = rem data s ++ List.replicate 8 false)) := by
  have hb : s.bits * 2 ^ 8 + 255 < 2 ^ (s.n + 8) := by
    have := h.bits
    rw [Nat.pow_add]
    generalize 2 ^ s.n = x at *
    norm_num
    omega
  have h32 : 2 ^ (s.n + 8) ≤ 2 ^ 32 := Nat.pow_le_pow_right (by omega) (by omega)
  have hs : s.bits <<< 8 % 2 ^ 32 = s.bits <<< 8 := by
    rw [Nat.shiftLeft_eq, Nat.mod_eq_of_lt (Nat.lt_of_le_of_lt (Nat.le_add_right _ 255) (Nat.lt_of_lt_of_le hb h32))]
  by_cases ho : s.off < data.length
  · have e : readByte data s = ⟨s.bits * 2 ^ 8 + data[s.off].toNat, s.n + 8, s.off + 1⟩ := by
      unfold readByte
      rw [List.getElem?_eq_getElem ho]
      simp only
      rw [hs, shl8_or _ _ (data[s.off]).isLt]
    have hl := (data[s.off]).isLt
    rw [e]
    refine ⟨⟨Nat.lt_of_le_of_lt (Nat.add_le_add_left (by omega) _) hb, by simp only; omega, by simp only; omega⟩, rfl, by simp only; omega, Or.inl ⟨ho, rfl, ?_⟩⟩
    unfold rem
    simp only
    rw [bits_join (by omega), List.drop_eq_getElem_cons ho, byteBits_cons, List.append_assoc]
  · have e : readByte data s = ⟨s.bits * 2 ^ 8 + 0, s.n + 8, s.off⟩ := by
      unfold readByte
      rw [List.getElem?_eq_none (by omega)]
      simp only
      rw [hs, Nat.shiftLeft_eq]; simp only [Nat.add_zero]
    have hoff := h.off
    rw [e]
    refine ⟨⟨Nat.lt_of_le_of_lt (Nat.add_le_add_left (Nat.zero_le 255) _) hb, by simp only; omega, by simp only; omega⟩, rfl, by simp only; omega, Or.inr ⟨by omega, ?_⟩⟩
    unfold rem
    simp only
    rw [bits_join (by omega), bits_zero, List.drop_eq_nil_of_le (by omega)]
    simp [byteBits]

theorem readData_spec {data : List Byte} {want : Nat} (hw : want ≤ 24) (fuel : Nat) : ∀ s, Inv data s → want ≤ s.n + fuel →
    want ≤ (readData data want fuel s).n ∧ Inv data (readData data want fuel s) ∧ s.off ≤ (readData data want fuel s).off ∧
    (∃ pad, rem data (readData data want fuel s) = rem data s ++ List.replicate pad false ∧ (want ≤ (rem data s).length → pad = 0)) ∧
    (s.n < want → s.off < data.length → s.off < (readData data want fuel s).off) := by
  induction fuel with
  | zero =>
    intro s h hf
    exact ⟨by simpa [readData] using hf, h, Nat.le_refl _, ⟨0, by simp [readData], fun _ => rfl⟩, fun h' => by omega⟩
  | succ fuel ih =>
    intro s h hf
    unfold readData
    by_cases hn : want > s.n
    · rw [if_pos hn]
      obtain ⟨i1, n1, o1, hc⟩ := readByte_spec h (by omega)
      obtain ⟨a1, i2, o2, ⟨pad, e2, z2⟩, a4⟩ := ih (readByte data s) i1 (by omega)
      rcases hc with ⟨l1, l2, l3⟩ | ⟨l1, l2⟩
      · rw [l3] at e2 z2
        exact ⟨a1, i2, by omega, ⟨pad, e2, z2⟩, fun _ _ => by omega⟩
      · rw [l2] at e2
        refine ⟨a1, i2, by omega, ⟨8 + pad, ?_, ?_⟩, fun _ h' => by omega⟩
        · rw [← List.replicate_append_replicate, ← List.append_assoc]; exact e2
        · intro hl
          rw [rem_length] at hl
          omega
    · rw [if_neg hn]
      exact ⟨by omega, h, Nat.le_refl _, ⟨0, by simp, fun _ => rfl⟩, fun h' => by omega⟩

theorem split_ok {bits n : Nat} (hn : n ≤ 31) : split bits n = .ok (bits % 2 ^ n, bits / 2 ^ n) := by
  unfold split
  by_cases h0 : n = 0
  · subst h0
    simp [Nat.mod_one]
  · rw [if_neg h0, R.subU_ok (by omega), R.ok_bind]
    have hm : 0xffffffff >>> (32 - n) = 2 ^ n - 1 := by
      rw [Nat.shiftRight_eq_div_pow]
      have : (0xffffffff : Nat) = 2 ^ (32 - n) * (2 ^ n - 1) + (2 ^ (32 - n) - 1) := by
        have e : 2 ^ (32 - n) * 2 ^ n = 4294967296 := by rw [← Nat.pow_add, Nat.sub_add_cancel (by omega)]
        have := Nat.two_pow_pos n
        have := Nat.two_pow_pos (32 - n)
        rw [Nat.mul_sub, e]
        generalize 2 ^ n = x at *
        generalize 2 ^ (32 - n) = y at *
        have : y ≤ 4294967296 := by rw [← e]; exact Nat.le_mul_of_pos_right _ (by omega)
        omega
      rw [this, Nat.mul_add_div (Nat.two_pow_pos _), Nat.div_eq_of_lt (by have := Nat.two_pow_pos (32 - n); omega)]; rfl
    rw [hm, Nat.and_two_pow_sub_one_eq_mod, Nat.shiftRight_eq_div_pow]; rfl

theorem getStep_spec {data : List Byte} {size : Nat} (h1 : 1 ≤ size) (h24 : size ≤ 24) (offset value : Nat) (s : Bs) (h : Inv data s)
    (hv : value < 2 ^ offset) (ho : offset + size ≤ 32) :
    ∃ v s', getStep data size offset value s = .ok (value * 2 ^ size + v, s') ∧ v < 2 ^ size ∧ Took data s (bits size v) s' ∧
      (s.n < size → s.off < data.length → s.off < s'.off) := by
  obtain ⟨t, ht, hn, hi, hoff, ⟨pad, hr, hp⟩, hlt⟩ : ∃ t, (if s.n < size then readData data size size s else s) = t ∧ size ≤ t.n ∧ Inv data t ∧ s.off ≤ t.off ∧
      (∃ pad, rem data t = rem data s ++ List.replicate pad false ∧ (size ≤ (rem data s).length → pad = 0)) ∧
      (s.n < size → s.off < data.length → s.off < t.off) := by
    by_cases hn : s.n < size
    · rw [if_pos hn]
      exact ⟨_, rfl, readData_spec h24 size s h (by omega)⟩
    · rw [if_neg hn]
      exact ⟨s, rfl, by omega, h, Nat.le_refl _, ⟨0, by simp, fun _ => rfl⟩, fun h' => by omega⟩
  have hsmall := hi.small
  refine ⟨t.bits / 2 ^ (t.n - size), ⟨t.bits % 2 ^ (t.n - size), t.n - size, t.off⟩, ?_, ?_, ?_, hlt⟩
  · unfold getStep
    simp only [ht]
    rw [R.subU_ok hn, R.ok_bind, split_ok (by omega), R.ok_bind]
    simp only [R.pure_eq, R.ok.injEq, Prod.mk.injEq, and_true]
    have hv' : t.bits / 2 ^ (t.n - size) < 2 ^ size := by
      rw [Nat.div_lt_iff_lt_mul (Nat.two_pow_pos _), ← Nat.pow_add, Nat.add_sub_cancel' hn]
      exact hi.bits
    by_cases h0 : offset > 0
    · rw [if_pos h0, Nat.shiftLeft_eq, Nat.mod_eq_of_lt, ← Nat.shiftLeft_eq, shl_or hv', Nat.shiftLeft_eq]
      refine Nat.lt_of_lt_of_le ?_ (Nat.pow_le_pow_right (by omega) ho)
      rw [Nat.pow_add]
      exact Nat.mul_lt_mul_of_pos_right hv (Nat.two_pow_pos _)
    · have : value = 0 := by
        have : offset = 0 := by omega
        rw [this] at hv
        omega
      rw [if_neg h0, this]
      simp
  · rw [Nat.div_lt_iff_lt_mul (Nat.two_pow_pos _), ← Nat.pow_add, Nat.add_sub_cancel' hn]
    exact hi.bits
  · refine ⟨⟨Nat.mod_lt _ (Nat.two_pow_pos _), by simp only; omega, hi.off⟩, hoff, pad, ?_, ?_⟩
    · rw [← hr]
      unfold rem
      simp only
      rw [bits_mod _ _ _ (Nat.le_refl _), ← List.append_assoc, ← bits_add, Nat.add_sub_cancel' hn]
    · intro hl
      rw [bits_length] at hl
      exact hp hl

theorem getLoop_spec {data : List Byte} {want : Nat} (hw : want ≤ 32) (fuel : Nat) : ∀ offset value s, Inv data s → offset ≤ want → want - offset ≤ fuel → value < 2 ^ offset →
    ∃ v s', getLoop data want fuel offset value s = .ok (value * 2 ^ (want - offset) + v, s') ∧ v < 2 ^ (want - offset) ∧ Took data s (bits (want - offset) v) s' ∧
      (s.n < min (want - offset) 24 → s.off < data.length → s.off < s'.off) := by
  induction fuel with
  | zero =>
    intro offset value s h ho hf hv
    rw [show want - offset = 0 by omega]
    exact ⟨0, s, by simp [getLoop], by omega, Took.refl h, by omega⟩
  | succ fuel ih =>
    intro offset value s h ho hf hv
    unfold getLoop
    by_cases hlt : offset < want
    · rw [if_pos hlt]
      obtain ⟨v1, s1, e1, l1, t1, o1⟩ := getStep_spec (data := data) (size := min (want - offset) 24) (by omega) (by omega) offset value s h hv (by omega)
      simp only [e1, R.ok_bind]
      generalize hsz : min (want - offset) 24 = size at *
      obtain ⟨v2, s2, e2, l2, t2, -⟩ := ih (offset + size) (value * 2 ^ size + v1) s1 t1.1 (by omega) (by omega) (by
        rw [Nat.pow_add]
        calc value * 2 ^ size + v1 < value * 2 ^ size + 2 ^ size := by omega
          _ = (value + 1) * 2 ^ size := by ring
          _ ≤ _ := Nat.mul_le_mul_right _ hv)
      rw [e2]
      have e : want - offset = size + (want - (offset + size)) := by omega
      generalize want - (offset + size) = r at *
      refine ⟨v1 * 2 ^ r + v2, s2, ?_, ?_, ?_, fun a b => ?_⟩
      · congr 2
        rw [e, Nat.pow_add]; ring
      · rw [e, Nat.pow_add]
        calc v1 * 2 ^ r + v2 < v1 * 2 ^ r + 2 ^ r := by omega
          _ = (v1 + 1) * 2 ^ r := by ring
          _ ≤ _ := Nat.mul_le_mul_right _ l1
      · rw [e, bits_join l2]
        exact t1.trans t2
      · have := o1 a b
        have := t2.2.1
        omega
    · rw [if_neg hlt, show want - offset = 0 by omega]
      exact ⟨0, s, by simp, by omega, Took.refl h, by omega⟩

theorem getValue_spec {data : List Byte} {want : Nat} (hw : want ≤ 32) {s : Bs} (h : Inv data s) :
    ∃ v s', getValue data want s = .ok (v, s') ∧ v < 2 ^ want ∧ Took data s (bits want v) s' ∧
      (s.n < min want 24 → s.off < data.length → s.off < s'.off) := by
  obtain ⟨v, s', h1, h2⟩ := getLoop_spec hw want 0 0 s h (by omega) (by omega) (by omega)
  simp only [Nat.zero_mul, Nat.zero_add] at h1
  exact ⟨v, s', h1, h2⟩

/-- The bits that follow. -/
def At (data : List Byte) (s : Bs) (bs : List Bool) : Prop := Inv data s ∧ rem data s = bs

theorem getValue_ok {data : List Byte} {want v : Nat} (hw : want ≤ 32) {s : Bs} {rest : List Bool} (h : At data s (bits want v ++ rest)) (hv : v < 2 ^ want) :
    ∃ s', getValue data want s = .ok (v, s') ∧ At data s' rest := by
  obtain ⟨v', s', h1, h2, ⟨h3, -, pad, e, z⟩, -⟩ := getValue_spec hw h.1
  have hz := z (by rw [h.2]; simp)
  subst hz
  rw [h.2, List.replicate_zero, List.append_nil] at e
  obtain ⟨e1, e2⟩ := List.append_inj e (by simp)
  have := bits_inj hv h2 e1
  subst this
  exact ⟨s', h1, h3, e2.symm⟩

theorem getBit_ok {data : List Byte} {b : Bool} {s : Bs} {rest : List Bool} (h : At data s (b :: rest)) :
    ∃ s', getValue data 1 s = .ok (b.toNat, s') ∧ At data s' rest := by
  refine getValue_ok (by omega) (by cases b <;> exact h) ?_
  cases b <;> decide

theorem reads_ok {data : List Byte} (bs : List Bool) : ∀ {s : Bs} {rest : List Bool}, At data s (bs ++ rest) →
    ∃ s', Reads (getValue data 1) s bs s' ∧ At data s' rest := by
  induction bs with
  | nil => intro s rest h; exact ⟨s, .nil _, h⟩
  | cons b bs ih =>
    intro s rest h
    obtain ⟨s1, e1, h1⟩ := getBit_ok h
    obtain ⟨s2, e2, h2⟩ := ih h1
    exact ⟨s2, .cons e1 e2, h2⟩

theorem getBit_spec {data : List Byte} {s : Bs} (h : Inv data s) :
    ∃ b : Bool, ∃ s', getValue data 1 s = .ok (b.toNat, s') ∧ Took data s [b] s' := by
  obtain ⟨v, s', h1, h2, h3, -⟩ := getValue_spec (want := 1) (by omega) h
  have : v = 0 ∨ v = 1 := by omega
  rcases this with rfl | rfl
  · exact ⟨false, s', h1, h3⟩
  · exact ⟨true, s', h1, h3⟩

end Keramics.Bzip2
