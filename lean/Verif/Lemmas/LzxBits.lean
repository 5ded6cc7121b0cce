import Verif.Lemmas.Bzip2Bits
import Verif.Model.Lzx
import Verif.Spec.Lzx

/-! # The LZX bit stream returns the bits of the words of the data in order -/

namespace Keramics.Lzx
open Keramics.Spec.Huffman Keramics.Huffman
open Keramics.Spec.Lzx (wordBits)
open Keramics.Bzip2 (bits_length bits_add bits_mod bits_join bits_inj bits_zero)

theorem wordBits_cons (a b : Byte) (data : List Byte) :
    wordBits (a :: b :: data) = bits 8 b.toNat ++ bits 8 a.toNat ++ wordBits data := rfl

theorem wordBits_length (data : List Byte) : (wordBits data).length = 16 * (data.length / 2) := by
  fun_induction wordBits data with
  | case1 a b rest ih =>
    rw [List.length_append, List.length_append, bits_length, bits_length, ih, List.length_cons, List.length_cons]; omega
  | case2 l h =>
    match l with
    | [] => rfl
    | [_] => simp
    | a :: b :: r => exact absurd rfl (h a b r)

theorem wordBits_short {data : List Byte} (h : data.length < 2) : wordBits data = [] := by
  apply List.eq_nil_of_length_eq_zero
  rw [wordBits_length]; omega

/-- The bits not yet read. -/
def rem (data : List Byte) (s : Bs) : List Bool := bits s.n s.bits ++ wordBits (data.drop s.off)

structure Inv (data : List Byte) (s : Bs) : Prop where
  bits : s.bits < 2 ^ s.n
  small : s.n ≤ 15
  off : s.off ≤ data.length

theorem rem_length {data : List Byte} (s : Bs) : (rem data s).length = s.n + 16 * ((data.length - s.off) / 2) := by
  simp [rem, wordBits_length]

/-- No word is left. -/
def Dry (data : List Byte) (s : Bs) : Prop := data.length < s.off + 2

/-- From `s`, reading the bits `bs` leads to `s'`; zeros follow the data. -/
def Took (data : List Byte) (s : Bs) (bs : List Bool) (s' : Bs) : Prop :=
  Inv data s' ∧ (s.off ≤ s'.off ∧ s'.off % 2 = s.off % 2) ∧ ∃ pad, rem data s ++ List.replicate pad false = bs ++ rem data s' ∧
    (bs.length ≤ (rem data s).length → pad = 0) ∧ (pad ≠ 0 → Dry data s')

theorem Took.refl {data : List Byte} {s : Bs} (h : Inv data s) : Took data s [] s :=
  ⟨h, ⟨Nat.le_refl _, rfl⟩, 0, by simp, fun _ => rfl, by simp⟩

theorem Took.trans {data : List Byte} {s t u : Bs} {a b : List Bool} (h1 : Took data s a t) (h2 : Took data t b u) : Took data s (a ++ b) u := by
  obtain ⟨i1, o1, p, e1, z1, d1⟩ := h1
  obtain ⟨i2, o2, q, e2, z2, d2⟩ := h2
  refine ⟨i2, by omega, p + q, ?_, ?_, ?_⟩
  · rw [← List.replicate_append_replicate, ← List.append_assoc, e1, List.append_assoc, e2, List.append_assoc]
  · intro h
    rw [List.length_append] at h
    have hp := z1 (by omega)
    subst hp
    simp only [List.replicate_zero, List.append_nil] at e1
    have := congrArg List.length e1
    rw [List.length_append] at this
    have hq := z2 (by omega)
    omega
  · intro h
    unfold Dry at *
    by_cases hp : p = 0
    · exact d2 (by omega)
    · have := d1 hp
      omega

theorem ensure_spec {data : List Byte} {size : Nat} (h16 : size ≤ 16) {s : Bs} (h : Inv data s) :
    ∃ t, ensure data size s = .ok t ∧ size ≤ t.n ∧ t.n ≤ size + 15 ∧ t.bits < 2 ^ t.n ∧ (s.off ≤ t.off ∧ t.off % 2 = s.off % 2) ∧ t.off ≤ data.length ∧
      (∃ pad, rem data t = rem data s ++ List.replicate pad false ∧ (size ≤ (rem data s).length → pad = 0) ∧ (pad ≠ 0 → Dry data t)) := by
  have hoff := h.off
  have hsm := h.small
  unfold ensure
  by_cases hn : s.n < size
  swap
  · rw [if_neg hn]
    exact ⟨s, rfl, by omega, by omega, h.bits, ⟨Nat.le_refl _, rfl⟩, hoff, ⟨0, by simp, fun _ => rfl, by simp⟩⟩
  rw [if_pos hn]
  obtain ⟨k, rfl⟩ : ∃ k, size = k + 1 := ⟨size - 1, by omega⟩
  have hb : s.bits * 2 ^ 16 + 65535 < 2 ^ (s.n + 16) := by
    have := h.bits
    rw [Nat.pow_add]
    generalize 2 ^ s.n = x at *
    norm_num
    omega
  have h32 : 2 ^ (s.n + 16) ≤ 2 ^ 32 := Nat.pow_le_pow_right (by omega) (by omega)
  have hs : s.bits <<< 16 % 2 ^ 32 = s.bits <<< 16 := by
    rw [Nat.shiftLeft_eq, Nat.mod_eq_of_lt (Nat.lt_of_le_of_lt (Nat.le_add_right _ 65535) (Nat.lt_of_lt_of_le hb h32))]
  have hstop : ∀ t : Bs, k + 1 ≤ t.n → readData data (k + 1) k t = .ok t := by
    intro t ht
    cases k <;> simp only [readData] <;> rw [if_neg (by omega)]
  unfold readData
  rw [if_pos hn, R.subU_ok hoff, R.ok_bind, hs]
  unfold orWord
  by_cases ho : data.length - s.off ≥ 2
  · rw [if_pos ho]
    have h0 : s.off < data.length := by omega
    have h1 : s.off + 1 < data.length := by omega
    obtain ⟨x0, hx0⟩ : ∃ x, x = data[s.off] := ⟨_, rfl⟩
    obtain ⟨x1, hx1⟩ : ∃ x, x = data[s.off + 1] := ⟨_, rfl⟩
    have e : data.drop s.off = x0 :: x1 :: data.drop (s.off + 2) := by
      rw [List.drop_eq_getElem_cons h0, List.drop_eq_getElem_cons h1, hx0, hx1]
    have hw : u16le data s.off = .ok (x0.toNat + 256 * x1.toNat) := by
      unfold u16le
      rw [R.slice_ok (by omega) (by omega), R.ok_bind, Nat.add_sub_cancel_left, e]
      simp [leNat]
    simp only [hw, R.ok_bind, R.pure_eq]
    have l0 := (x0).isLt
    have l1 := (x1).isLt
    rw [hstop _ (by simp only; omega), shl_or (k := 16) (by omega), ]
    refine ⟨_, rfl, by simp only; omega, by simp only; omega, ?_, by simp only; omega, by simp only; omega, ⟨0, ?_, fun _ => rfl, by simp⟩⟩
    · exact Nat.lt_of_le_of_lt (Nat.add_le_add_left (by omega) _) hb
    · rw [List.replicate_zero, List.append_nil]
      unfold rem
      simp only
      rw [e, wordBits_cons, bits_join (by omega), show (16 : Nat) = 8 + 8 from rfl, Nat.add_comm (x0.toNat), show (256 : Nat) = 2 ^ 8 from rfl, Nat.mul_comm, bits_join (by omega)]
      simp only [List.append_assoc]
  · rw [if_neg ho, R.ok_bind, hstop _ (by simp only; omega)]
    refine ⟨_, rfl, by simp only; omega, by simp only; omega, ?_, ⟨Nat.le_refl _, rfl⟩, hoff, ⟨16, ?_, ?_, fun _ => by unfold Dry; simp only; omega⟩⟩
    · simp only [Nat.shiftLeft_eq]
      exact Nat.lt_of_le_of_lt (Nat.le_add_right _ _) hb
    · unfold rem
      simp only
      rw [wordBits_short (by rw [List.length_drop]; omega), Nat.shiftLeft_eq, ← Nat.add_zero (s.bits * 2 ^ 16), bits_join (by decide), bits_zero]
      simp
    · intro hl
      rw [rem_length] at hl
      omega

theorem split_ok {bits n : Nat} (hn : n ≤ 31) : split bits n = .ok (bits % 2 ^ n, bits / 2 ^ n) := Bzip2.split_ok hn

theorem getValue_spec {data : List Byte} {want : Nat} (hw : want ≤ 16) {s : Bs} (h : Inv data s) :
    ∃ v s', getValue data want s = .ok (v, s') ∧ v < 2 ^ want ∧ Took data s (bits want v) s' := by
  unfold getValue
  rcases Nat.eq_zero_or_pos want with rfl | hpos
  · exact ⟨0, s, by simp [getLoop], by omega, Took.refl h⟩
  obtain ⟨k, rfl⟩ : ∃ k, want = k + 1 := ⟨want - 1, by omega⟩
  obtain ⟨t, ht, hn, hn', hb, ho, ho', ⟨pad, hr, hp, hd⟩⟩ := ensure_spec hw h
  have hsize : (if k + 1 - 0 > 16 then 16 else k + 1 - 0) = k + 1 := by rw [if_neg (by omega)]; rfl
  unfold getLoop
  rw [if_pos (by omega)]
  simp only [hsize, ht, R.ok_bind, R.subU_ok hn, split_ok (show t.n - (k + 1) ≤ 31 by omega)]
  have hv' : t.bits / 2 ^ (t.n - (k + 1)) < 2 ^ (k + 1) := by
    rw [Nat.div_lt_iff_lt_mul (Nat.two_pow_pos _), ← Nat.pow_add, Nat.add_sub_cancel' hn]
    exact hb
  refine ⟨t.bits / 2 ^ (t.n - (k + 1)), ⟨t.off, t.bits % 2 ^ (t.n - (k + 1)), t.n - (k + 1)⟩, ?_, hv', ?_⟩
  · cases k <;> simp [getLoop]
  · refine ⟨⟨Nat.mod_lt _ (Nat.two_pow_pos _), by simp only; omega, ho'⟩, ho, pad, ?_, ?_, hd⟩
    · rw [← hr]
      unfold rem
      simp only
      rw [bits_mod _ _ _ (Nat.le_refl _), ← List.append_assoc, ← bits_add, Nat.add_sub_cancel' hn]
    · intro hl
      rw [bits_length] at hl
      exact hp hl

/-- The bits that follow. -/
def At (data : List Byte) (s : Bs) (bs : List Bool) : Prop := Inv data s ∧ rem data s = bs

theorem getValue_ok {data : List Byte} {want v : Nat} (hw : want ≤ 16) {s : Bs} {rest : List Bool} (h : At data s (bits want v ++ rest)) (hv : v < 2 ^ want) :
    ∃ s', getValue data want s = .ok (v, s') ∧ At data s' rest := by
  obtain ⟨v', s', h1, h2, ⟨h3, -, pad, e, z, -⟩⟩ := getValue_spec hw h.1
  have hz := z (by rw [h.2]; simp)
  subst hz
  rw [h.2, List.replicate_zero, List.append_nil] at e
  obtain ⟨e1, e2⟩ := List.append_inj e (by simp)
  have := bits_inj hv h2 e1
  subst this
  exact ⟨s', h1, h3, e2.symm⟩

theorem getBit_ok {data : List Byte} {b : Bool} {s : Bs} {rest : List Bool} (h : At data s (b :: rest)) :
    ∃ s', getValue data 1 s = .ok (b.toNat, s') ∧ At data s' rest := by
  refine getValue_ok (by omega) (by cases b <;> exact h) ?_
  cases b <;> decide

theorem reads_ok {data : List Byte} (bs : List Bool) : ∀ {s : Bs} {rest : List Bool}, At data s (bs ++ rest) →
    ∃ s', Reads (getValue data 1) s bs s' ∧ At data s' rest := by
  induction bs with
  | nil => intro s rest h; exact ⟨s, .nil _, h⟩
  | cons b bs ih =>
    intro s rest h
    obtain ⟨s1, e1, h1⟩ := getBit_ok h
    obtain ⟨s2, e2, h2⟩ := ih h1
    exact ⟨s2, .cons e1 e2, h2⟩

/-- A symbol is read back. -/
theorem symbol_ok {data : List Byte} {t : Tree} {ls : List Nat} (ht : IsTree t ls) {v : Nat} (hv : Coded ls v) {s : Bs} {rest : List Bool}
    (h : At data s (codeBits ls v ++ rest)) : ∃ s', decodeSymbol (getValue data 1) t s = .ok (v, s') ∧ At data s' rest := by
  obtain ⟨s', h1, h2⟩ := reads_ok _ h
  exact ⟨s', decode_ok _ ht hv h1, h2⟩

/-! ## What can be said of any data -/

/-- At least `k` bits after `s0`. -/
def After (data : List Byte) (k : Nat) (s0 s : Bs) : Prop := Inv data s ∧ ∃ bs, k ≤ bs.length ∧ Took data s0 bs s

theorem After.took {data : List Byte} {k : Nat} {s0 s s' : Bs} {bs : List Bool} (h : After data k s0 s) (ht : Took data s bs s') :
    After data (k + bs.length) s0 s' := by
  obtain ⟨_, a, ha, hb⟩ := h
  exact ⟨ht.1, a ++ bs, by rw [List.length_append]; omega, hb.trans ht⟩

theorem After.mono {data : List Byte} {k k' : Nat} {s0 s : Bs} (h : After data k s0 s) (hk : k' ≤ k) : After data k' s0 s := by
  obtain ⟨h0, a, ha, hb⟩ := h
  exact ⟨h0, a, by omega, hb⟩

theorem After.refl {data : List Byte} {s : Bs} (h : Inv data s) : After data 0 s s := ⟨h, [], Nat.le_refl _, Took.refl h⟩

theorem After.off {data : List Byte} {k : Nat} {s0 s : Bs} (h : After data k s0 s) : s0.off ≤ s.off := by
  obtain ⟨_, _, _, hb⟩ := h
  exact hb.2.1.1

theorem After.even {data : List Byte} {k : Nat} {s0 s : Bs} (h : After data k s0 s) : s.off % 2 = s0.off % 2 := by
  obtain ⟨_, _, _, hb⟩ := h
  exact hb.2.1.2

/-- 16 bits cannot come from the buffer alone. -/
theorem After.advance {data : List Byte} {k : Nat} {s0 s : Bs} (h0 : Inv data s0) (h : After data k s0 s) (hk : 16 ≤ k) (hd : ¬ Dry data s0) : s0.off < s.off := by
  obtain ⟨_, bs, hl, hi, ho, pad, e, _, d⟩ := h
  by_contra hc
  have hoff : s.off = s0.off := by omega
  have hp : pad = 0 := by
    by_contra hp
    have := d hp
    unfold Dry at *
    omega
  subst hp
  have := congrArg List.length e
  simp only [List.length_append, List.replicate_zero, List.length_nil, rem_length, hoff] at this
  have := h0.small
  omega

/-- Without words left, only zeros come after 16 bits. -/
theorem After.zeros {data : List Byte} {k : Nat} {s0 s : Bs} (h0 : Inv data s0) (h : After data k s0 s) (hk : 16 ≤ k) (hd : Dry data s0) :
    ∀ b ∈ rem data s, b = false := by
  obtain ⟨_, bs, hl, hi, ho, pad, e, _, d⟩ := h
  have hlen : (rem data s0).length ≤ bs.length := by
    rw [rem_length]
    have := h0.small
    unfold Dry at hd
    omega
  obtain ⟨c, rfl⟩ : ∃ c, bs = rem data s0 ++ c := by
    have := (List.append_eq_append_iff.1 e)
    rcases this with ⟨c, h1, h2⟩ | ⟨c, h1, h2⟩
    · exact ⟨c, h1⟩
    · have := congrArg List.length h1
      rw [List.length_append] at this
      have : c = [] := List.eq_nil_of_length_eq_zero (by omega)
      subst this
      exact ⟨[], by simpa using h1.symm⟩
  rw [List.append_assoc] at e
  have e' := List.append_cancel_left e
  intro b hb
  have : b ∈ List.replicate pad false := by rw [e']; exact List.mem_append_right _ hb
  exact (List.mem_replicate.1 this).2

theorem getValue_sat {data : List Byte} {want k : Nat} (hw : want ≤ 16) {s0 s : Bs} (h : After data k s0 s) :
    R.Sat (getValue data want s) fun r => r.1 < 2 ^ want ∧ After data k s0 r.2 := by
  obtain ⟨v, s', e, hv, ht⟩ := getValue_spec hw h.1
  rw [e]
  exact R.sat_ok ⟨hv, (h.took ht).mono (by omega)⟩

theorem symbol_sat {data : List Byte} {t : Tree} {ls : List Nat} (ht : IsTree t ls) {k : Nat} {s0 s : Bs} (h : After data k s0 s) :
    R.Sat (decodeSymbol (getValue data 1) t s) fun r => Coded ls r.1 ∧ After data k s0 r.2 :=
  (decode_sat (getValue data 1) (After data k s0) (fun st hst => getValue_sat (by omega) hst) ht s h).mono fun _ h => ⟨h.1, h.2.2⟩

end Keramics.Lzx
