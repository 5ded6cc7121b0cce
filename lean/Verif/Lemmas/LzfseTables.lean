import Verif.Lemmas.LzfseBits

/-! # The decoder tables of LZFSE undo the finite state entropy coding -/

namespace Keramics.Lzfse
open Keramics.Spec.Lzfse

theorem le_sum {l : List Nat} {x : Nat} (h : x ∈ l) : x ≤ l.sum := by
  induction l with
  | nil => simp at h
  | cons a l ih =>
    rw [List.sum_cons]
    rcases List.mem_cons.1 h with rfl | h
    · omega
    · have := ih h; omega

/-- The shift of the format: what is left is between the frequency and twice the frequency. -/
theorem shift_spec {f N s : Nat} (h0 : f ≠ 0) (hf : f ≤ N) (hs : N + s < 2048) :
    shift f (N + s) ≤ 10 ∧ f ≤ (N + s) / 2 ^ shift f (N + s) ∧ (N + s) / 2 ^ shift f (N + s) < 2 * f := by
  unfold shift
  cases h : (List.range 11).find? fun k => decide ((N + s) / 2 ^ k < 2 * f) with
  | none =>
    rw [List.find?_eq_none] at h
    have := h 10 (by simp)
    exfalso
    apply this
    rw [decide_eq_true_eq]
    omega
  | some k =>
    have hk := List.find?_some h
    have hm := List.mem_of_find?_eq_some h
    rw [List.mem_range] at hm
    rw [decide_eq_true_eq] at hk
    simp only [Option.getD_some]
    refine ⟨by omega, ?_, hk⟩
    by_cases hk0 : k = 0
    · subst hk0; simp; omega
    · obtain ⟨j, rfl⟩ : ∃ j, k = j + 1 := ⟨k - 1, by omega⟩
      have hlt : ¬ (N + s) / 2 ^ j < 2 * f := by
        intro hc
        obtain ⟨l1, l2, e, h1⟩ := List.find?_eq_some_iff_append.1 h |>.2
        have hj : j ∈ l1 := by
          have hsp : (List.range 11)[j]? = some j := by rw [List.getElem?_range (by omega)]
          have hlen : l1.length = j + 1 := by
            have h2 : (List.range 11)[l1.length]? = some (j + 1) := by rw [e]; simp
            have h3 : l1.length < 11 := by
              by_contra hcc
              rw [List.getElem?_eq_none (by simp; omega)] at h2
              simp at h2
            rw [List.getElem?_range h3] at h2
            exact Option.some.inj h2
          rw [e, List.getElem?_append_left (by omega)] at hsp
          exact List.mem_of_getElem? hsp
        have := h1 j hj
        simp [hc] at this
      rw [Nat.pow_succ, ← Nat.div_div_eq_div_mul]
      omega

theorem pow_unique {N y a b : Nat} (ha : N ≤ y * 2 ^ a) (ha' : y * 2 ^ a < 2 * N) (hb : N ≤ y * 2 ^ b) (hb' : y * 2 ^ b < 2 * N) : a = b := by
  have key : ∀ a b, N ≤ y * 2 ^ a → y * 2 ^ b < 2 * N → b ≤ a := by
    intro a b h1 h2
    by_contra hc
    have : 2 ^ (a + 1) ≤ 2 ^ b := Nat.pow_le_pow_right (by omega) (by omega)
    have h3 : y * 2 ^ (a + 1) ≤ y * 2 ^ b := Nat.mul_le_mul_left _ this
    rw [Nat.pow_succ, ← Nat.mul_assoc] at h3
    omega
  have := key a b ha hb'
  have := key b a hb ha'
  omega

theorem weight_spec {n f w : Nat} (h0 : f ≠ 0) (hf : f ≤ 2 ^ n) (hw : w < f) :
    ∃ k, weight (2 ^ n) f (n - Nat.log2 f) w = (k, (f + w) * 2 ^ k - 2 ^ n) ∧
      2 ^ n ≤ (f + w) * 2 ^ k ∧ (f + w) * 2 ^ k < 2 * 2 ^ n := by
  have h1 := Nat.log2_self_le h0
  have h2 : f < 2 ^ (Nat.log2 f + 1) := Nat.lt_log2_self
  generalize Nat.log2 f = l at *
  have hl : l ≤ n := by
    by_contra hc
    have : 2 ^ (n + 1) ≤ 2 ^ l := Nat.pow_le_pow_right (by omega) (by omega)
    rw [Nat.pow_succ] at this
    have := Nat.two_pow_pos n
    omega
  obtain ⟨b, rfl⟩ : ∃ b, n = l + b := ⟨n - l, by omega⟩
  rw [Nat.add_sub_cancel_left]
  have hbase : (2 * 2 ^ (l + b)) >>> b = 2 * 2 ^ l := by
    rw [Nat.shiftRight_eq_div_pow, Nat.pow_add, ← Nat.mul_assoc, Nat.mul_div_cancel _ (Nat.two_pow_pos _)]
  rw [Nat.pow_succ] at h2
  unfold weight
  simp only [hbase]
  by_cases hc : w < 2 * 2 ^ l - f
  · rw [if_pos hc, Nat.shiftLeft_eq]
    refine ⟨b, rfl, ?_, ?_⟩
    · rw [Nat.pow_add]; exact Nat.mul_le_mul_right _ (by omega)
    · rw [Nat.pow_add, ← Nat.mul_assoc]; exact Nat.mul_lt_mul_of_pos_right (by omega) (Nat.two_pow_pos _)
  · rw [if_neg hc]
    obtain ⟨c, rfl⟩ : ∃ c, b = c + 1 := by
      cases b with
      | zero => simp only [Nat.add_zero] at hf; omega
      | succ c => exact ⟨c, rfl⟩
    rw [Nat.add_sub_cancel, Nat.shiftLeft_eq]
    have e : 2 ^ (l + (c + 1)) = 2 * 2 ^ l * 2 ^ c := by rw [Nat.pow_add, Nat.pow_succ]; ac_rfl
    rw [e]
    refine ⟨c, ?_, ?_, ?_⟩
    · rw [← Nat.sub_mul]; congr 2; omega
    · exact Nat.mul_le_mul_right _ (by omega)
    · rw [← Nat.mul_assoc]; exact Nat.mul_lt_mul_of_pos_right (by omega) (Nat.two_pow_pos _)

theorem addFrequency_ok {N sum f : Nat} (hN : N ≤ 1024) (h : sum + f ≤ N) : addFrequency N sum f = .ok (sum + f) := by
  unfold addFrequency
  rw [if_neg (by omega), if_neg (by omega), R.require_true h]; rfl

theorem bits_sub {n f : Nat} (hn : n ≤ 10) (h0 : f ≠ 0) (hf : f ≤ 2 ^ n) :
    R.subU (leadingZeros16 f) (leadingZeros16 (2 ^ n)) = .ok (n - Nat.log2 f) := by
  have h1 := Nat.log2_self_le h0
  have hl : Nat.log2 f ≤ n := by
    by_contra hc
    have : 2 ^ (n + 1) ≤ 2 ^ Nat.log2 f := Nat.pow_le_pow_right (by omega) (by omega)
    rw [Nat.pow_succ] at this
    have := Nat.two_pow_pos n
    omega
  unfold leadingZeros16
  rw [if_neg h0, if_neg (Nat.two_pow_pos n).ne', Nat.log2_two_pow, R.subU_ok (by omega)]
  congr 1
  omega

/-- The table has an entry for every state of a symbol. -/
theorem entries_ok {n : Nat} (hn : n ≤ 10) (freqs : List Nat) (sym sum : Nat) (h : sum + freqs.sum ≤ 2 ^ n) :
    ∃ t, entries (2 ^ n) sym sum freqs = .ok t ∧ t.length = freqs.sum ∧
      ∀ x, x < freqs.length → ∀ w, w < freqs.getD x 0 → ∃ k,
        t[(freqs.take x).sum + w]? = some ⟨sym + x, k, (freqs.getD x 0 + w) * 2 ^ k - 2 ^ n⟩ ∧
        2 ^ n ≤ (freqs.getD x 0 + w) * 2 ^ k ∧ (freqs.getD x 0 + w) * 2 ^ k < 2 * 2 ^ n := by
  have hN : 2 ^ n ≤ 1024 := by
    have : 2 ^ n ≤ 2 ^ 10 := Nat.pow_le_pow_right (by omega) hn
    omega
  induction freqs generalizing sym sum with
  | nil => exact ⟨[], rfl, rfl, fun x hx => by simp at hx⟩
  | cons f fs ih =>
    rw [List.sum_cons] at h
    unfold entries
    by_cases h0 : f = 0
    · rw [if_pos h0]
      obtain ⟨t, e, hl, ht⟩ := ih (sym + 1) sum (by omega)
      refine ⟨t, e, by simp [hl, h0], ?_⟩
      intro x hx w hw
      cases x with
      | zero => simp [h0] at hw
      | succ x =>
        simp only [List.getD_cons_succ] at hw ⊢
        obtain ⟨k, h1, h2, h3⟩ := ht x (by simpa using hx) w hw
        refine ⟨k, ?_, h2, h3⟩
        rw [List.take_succ_cons, List.sum_cons, h0, Nat.zero_add, h1, Nat.add_assoc, Nat.add_comm 1 x]
    · rw [if_neg h0, addFrequency_ok hN (by omega), R.ok_bind, bits_sub hn h0 (by omega), R.ok_bind]
      obtain ⟨t, e, hl, ht⟩ := ih (sym + 1) (sum + f) (by omega)
      rw [e, R.ok_bind]
      refine ⟨_, rfl, by simp [hl], ?_⟩
      intro x hx w hw
      cases x with
      | zero =>
        simp only [List.getD_cons_zero, List.take_zero, List.sum_nil, Nat.zero_add, Nat.add_zero] at hw ⊢
        obtain ⟨k, h1, h2, h3⟩ := weight_spec h0 (n := n) (by omega) hw
        refine ⟨k, ?_, h2, h3⟩
        rw [List.getElem?_append_left (by simpa using hw), List.getElem?_map, List.getElem?_range hw]
        simp only [Option.map_some, h1]
      | succ x =>
        simp only [List.getD_cons_succ] at hw ⊢
        obtain ⟨k, h1, h2, h3⟩ := ht x (by simpa using hx) w hw
        refine ⟨k, ?_, h2, h3⟩
        rw [List.take_succ_cons, List.sum_cons, List.getElem?_append_right (by simp; omega)]
        simp only [List.length_map, List.length_range]
        rw [show f + (List.take x fs).sum + w - f = (List.take x fs).sum + w by omega, h1, Nat.add_assoc, Nat.add_comm 1 x]

/-- The entry of the state that stands for a symbol and a following state has the symbol, asks for as
many bits as were written, and with them gives the following state. -/
theorem state_entry {n : Nat} (hn : n ≤ 10) {freqs : List Nat} (h : freqs.sum ≤ 2 ^ n) {t : List Entry}
    (ht : entries (2 ^ n) 0 0 freqs = .ok t) {x s : Nat} (hx : Has freqs x) (hs : s < 2 ^ n) :
    state (2 ^ n) freqs x s < 2 ^ n ∧ ∃ delta,
      t[state (2 ^ n) freqs x s]? = some ⟨x, shift (freqs.getD x 0) (2 ^ n + s), delta⟩ ∧
      delta + (2 ^ n + s) % 2 ^ shift (freqs.getD x 0) (2 ^ n + s) = s ∧ shift (freqs.getD x 0) (2 ^ n + s) ≤ n := by
  obtain ⟨t', e, hl, hent⟩ := entries_ok hn freqs 0 0 (by omega)
  have htt : t' = t := R.ok.inj (e.symm.trans ht)
  subst htt
  obtain ⟨hx1, hx0⟩ := hx
  have hN : 2 ^ n ≤ 1024 := by
    have : 2 ^ n ≤ 2 ^ 10 := Nat.pow_le_pow_right (by omega) hn
    omega
  have hfN : freqs.getD x 0 ≤ 2 ^ n := by
    rw [List.getD_eq_getElem?_getD, List.getElem?_eq_getElem hx1, Option.getD_some]
    exact Nat.le_trans (le_sum (List.getElem_mem hx1)) h
  obtain ⟨k10, g1, g2⟩ := shift_spec (f := freqs.getD x 0) (N := 2 ^ n) (s := s) hx0 hfN (by omega)
  unfold state start
  simp only
  generalize hf : freqs.getD x 0 = f at *
  generalize hk : shift f (2 ^ n + s) = k at *
  obtain ⟨k', h1, h2, h3⟩ := hent x hx1 ((2 ^ n + s) / 2 ^ k - f) (by omega)
  rw [hf] at h1 h2 h3
  have ey : f + ((2 ^ n + s) / 2 ^ k - f) = (2 ^ n + s) / 2 ^ k := by omega
  rw [ey] at h1 h2 h3
  have hdm := Nat.div_add_mod (2 ^ n + s) (2 ^ k)
  rw [Nat.mul_comm] at hdm
  have hle : (2 ^ n + s) / 2 ^ k * 2 ^ k < 2 * 2 ^ n := by omega
  have hkn : k ≤ n := by
    by_contra hc
    have h4 : 2 ^ (n + 1) ≤ 2 ^ k := Nat.pow_le_pow_right (by omega) (by omega)
    have h5 : 1 ≤ (2 ^ n + s) / 2 ^ k := by omega
    have h6 : 1 * 2 ^ k ≤ (2 ^ n + s) / 2 ^ k * 2 ^ k := Nat.mul_le_mul_right _ h5
    rw [Nat.pow_succ] at h4
    omega
  have hge : 2 ^ n ≤ (2 ^ n + s) / 2 ^ k * 2 ^ k := by
    obtain ⟨j, hj⟩ : ∃ j, n = j + k := ⟨n - k, by omega⟩
    have e2 : 2 ^ n = 2 ^ j * 2 ^ k := by rw [hj, Nat.pow_add]
    have : 2 ^ j ≤ (2 ^ n + s) / 2 ^ k := by
      rw [Nat.le_div_iff_mul_le (Nat.two_pow_pos _), ← e2]; omega
    calc 2 ^ n = 2 ^ j * 2 ^ k := e2
      _ ≤ _ := Nat.mul_le_mul_right _ this
  have hkk := pow_unique h2 h3 hge hle
  subst hkk
  refine ⟨?_, (2 ^ n + s) / 2 ^ k' * 2 ^ k' - 2 ^ n, by rw [h1, Nat.zero_add], by omega, hkn⟩
  have : (List.take x freqs).sum + ((2 ^ n + s) / 2 ^ k' - f) < t'.length := (List.getElem?_eq_some_iff.1 h1).1
  omega

end Keramics.Lzfse
