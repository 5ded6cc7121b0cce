import Verif.Lemmas.Bitstream
import Verif.Lemmas.LzfseBlock

/-! # The headers and frequency tables of LZFSE blocks -/

namespace Keramics.Lzfse
open Keramics.Spec.Lzfse
open Keramics.Spec.Deflate (lsb byteBits)
open Keramics.Deflate (val val_append val_lt val_inj lsb_length val_lsb val_lsb_of_lt byteBits_cons byteBits_append byteBits_length)

def fsRem (data : List Byte) (stop : Nat) (s : Fs) : List Bool := lsb s.n s.value ++ byteBits ((data.take stop).drop s.off)

theorem lsb_join {a b x y : Nat} (hx : x < 2 ^ a) (hy : y < 2 ^ b) : lsb (a + b) (x + 2 ^ a * y) = lsb a x ++ lsb b y := by
  have hlt : x + 2 ^ a * y < 2 ^ (a + b) := by
    rw [Nat.pow_add]
    calc x + 2 ^ a * y < 2 ^ a + 2 ^ a * y := by omega
      _ = 2 ^ a * (y + 1) := by rw [Nat.mul_add, Nat.mul_one, Nat.add_comm]
      _ ≤ _ := Nat.mul_le_mul_left _ hy
  apply val_inj
  · simp
  · rw [val_append, val_lsb_of_lt hx, val_lsb_of_lt hy, val_lsb_of_lt hlt, lsb_length]

theorem fillTable_ok {data : List Byte} {stop : Nat} (hstop : stop ≤ data.length) (fuel : Nat) {s : Fs} (hv : s.value < 2 ^ s.n)
    (hn : s.n ≤ 32) (ho : s.off ≤ stop) (hf : 24 < s.n + 8 * fuel) :
    ∃ t, fillTable data stop fuel s = .ok t ∧ t.value < 2 ^ t.n ∧ t.n ≤ 32 ∧ t.off ≤ stop ∧ (24 < t.n ∨ t.off = stop) ∧
      fsRem data stop t = fsRem data stop s := by
  induction fuel generalizing s with
  | zero => exact ⟨s, rfl, hv, hn, ho, by omega, rfl⟩
  | succ fuel ih =>
    unfold fillTable
    by_cases h : s.n ≤ 24 ∧ s.off < stop
    · rw [if_pos h]
      have hlt : s.off < data.length := by omega
      rw [R.get_ok hlt, R.ok_bind]
      obtain ⟨x, hx⟩ : ∃ x, x = data[s.off] := ⟨_, rfl⟩
      rw [← hx]
      have hxl := x.isLt
      have h2 : x.toNat * 2 ^ s.n < 2 ^ (s.n + 8) := by
        rw [Nat.pow_add, Nat.mul_comm]
        exact Nat.mul_lt_mul_of_pos_left (by omega) (Nat.two_pow_pos _)
      have h3 : 2 ^ (s.n + 8) ≤ 2 ^ 32 := Nat.pow_le_pow_right (by omega) (by omega)
      have e : s.value ||| (x.toNat <<< s.n) % 2 ^ 32 = s.value + 2 ^ s.n * x.toNat := by
        rw [Nat.shiftLeft_eq, Nat.mod_eq_of_lt (Nat.lt_of_lt_of_le h2 h3), ← Nat.shiftLeft_eq, Nat.or_comm, shl_or hv, Nat.add_comm,
          Nat.mul_comm]
      rw [e]
      have hv2 : s.value + 2 ^ s.n * x.toNat < 2 ^ (s.n + 8) := by
        rw [Nat.pow_add]
        calc s.value + 2 ^ s.n * x.toNat < 2 ^ s.n + 2 ^ s.n * x.toNat := by omega
          _ = 2 ^ s.n * (x.toNat + 1) := by rw [Nat.mul_add, Nat.mul_one, Nat.add_comm]
          _ ≤ _ := Nat.mul_le_mul_left _ (by omega)
      obtain ⟨t, t1, t2, t3, t4, t5, t6⟩ := ih (s := ⟨s.off + 1, s.value + 2 ^ s.n * x.toNat, s.n + 8⟩) hv2 (by simp only; omega)
        (by simp only; omega) (by simp only; omega)
      refine ⟨t, t1, t2, t3, t4, t5, ?_⟩
      rw [t6]
      unfold fsRem
      simp only
      have hlt2 : s.off < (data.take stop).length := by rw [List.length_take]; omega
      rw [lsb_join hv hxl, List.drop_eq_getElem_cons hlt2, byteBits_cons, List.append_assoc, List.getElem_take, hx]
    · rw [if_neg h]
      exact ⟨s, rfl, hv, hn, ho, by omega, rfl⟩

theorem code_length (f : Nat) : (frequencyCode f).length =
    if f < 2 then 2 else if f < 4 then 3 else if f < 8 then 5 else if f < 24 then 8 else 14 := by
  unfold frequencyCode
  by_cases h0 : f = 0
  · subst h0; rfl
  rw [if_neg h0]
  by_cases h1 : f = 1
  · subst h1; rfl
  rw [if_neg h1]
  by_cases h2 : f = 2
  · subst h2; rfl
  rw [if_neg h2]
  by_cases h3 : f = 3
  · subst h3; rfl
  rw [if_neg h3, if_neg (show ¬ f < 2 by omega), if_neg (show ¬ f < 4 by omega)]
  by_cases h8 : f < 8
  · rw [if_pos h8, if_pos h8]; simp
  · rw [if_neg h8, if_neg h8]
    by_cases h24 : f < 24
    · rw [if_pos h24, if_pos h24]; simp
    · rw [if_neg h24, if_neg h24]; simp

theorem code_le (f : Nat) : (frequencyCode f).length ≤ 14 := by
  rw [code_length]; split_ifs <;> omega

/-- A number whose lowest bits are the code of a frequency. -/
theorem frequency_ok {f v : Nat} (hf : f ≤ 1047) (hv : v % 2 ^ (frequencyCode f).length = val (frequencyCode f)) :
    frequency v = ((frequencyCode f).length, f) := by
  have e5 : v &&& 0x1f = v % 32 := by
    rw [show (0x1f : Nat) = 2 ^ 5 - 1 from rfl, Nat.and_two_pow_sub_one_eq_mod]
  have small : ∀ f, f < 8 → ∀ i, i < 32 → i % 2 ^ (frequencyCode f).length = val (frequencyCode f) →
      frequencyBits.getD i 0 = (frequencyCode f).length ∧ frequencyValues.getD i 0 = f ∧
        (frequencyCode f).length ≤ 5 := by decide +kernel
  have mid : ∀ i, i < 32 → i % 16 = 7 → frequencyBits.getD i 0 = 8 := by decide +kernel
  have big : ∀ i, i < 32 → i % 16 = 15 → frequencyBits.getD i 0 = 14 := by decide +kernel
  unfold frequency
  simp only [e5]
  by_cases h8 : f < 8
  · have hl : (frequencyCode f).length ≤ 5 := by rw [code_length]; split_ifs <;> omega
    have hm : (v % 32) % 2 ^ (frequencyCode f).length = val (frequencyCode f) := by
      rw [← hv, show (32 : Nat) = 2 ^ 5 from rfl]
      exact Nat.mod_mod_of_dvd _ (Nat.pow_dvd_pow 2 hl)
    obtain ⟨a, b, _⟩ := small f h8 (v % 32) (Nat.mod_lt _ (by omega)) hm
    rw [a, b, if_neg (by omega), if_neg (by omega)]
  · by_cases h24 : f < 24
    · have hl : (frequencyCode f).length = 8 := by rw [code_length]; split_ifs <;> omega
      have hc : val (frequencyCode f) = 7 + 16 * (f - 8) := by
        have e : frequencyCode f = [true, true, true, false] ++ lsb 4 (f - 8) := by
          unfold frequencyCode
          rw [if_neg (by omega), if_neg (by omega), if_neg (by omega), if_neg (by omega), if_neg h8, if_pos h24]
        rw [e, val_append, val_lsb_of_lt (show f - 8 < 2 ^ 4 by omega)]
        simp [val]
      rw [hl, hc] at hv
      rw [mid (v % 32) (Nat.mod_lt _ (by omega)) (by omega), if_pos rfl, hl, Nat.shiftRight_eq_div_pow,
        show (0xf : Nat) = 2 ^ 4 - 1 from rfl, Nat.and_two_pow_sub_one_eq_mod]
      congr 1
      omega
    · have hl : (frequencyCode f).length = 14 := by rw [code_length]; split_ifs <;> omega
      have hc : val (frequencyCode f) = 15 + 16 * (f - 24) := by
        have e : frequencyCode f = [true, true, true, true] ++ lsb 10 (f - 24) := by
          unfold frequencyCode
          rw [if_neg (by omega), if_neg (by omega), if_neg (by omega), if_neg (by omega), if_neg h8, if_neg h24]
        rw [e, val_append, val_lsb_of_lt (show f - 24 < 2 ^ 10 by omega)]
        simp [val]
      rw [hl, hc] at hv
      rw [big (v % 32) (Nat.mod_lt _ (by omega)) (by omega), if_neg (by omega), if_pos rfl, hl, Nat.shiftRight_eq_div_pow,
        show (0x3ff : Nat) = 2 ^ 10 - 1 from rfl, Nat.and_two_pow_sub_one_eq_mod]
      congr 1
      omega

theorem lsb_split (a b v : Nat) : lsb (a + b) v = lsb a v ++ lsb b (v / 2 ^ a) := by
  apply val_inj
  · simp
  · rw [val_append, val_lsb, val_lsb, val_lsb, lsb_length, Nat.pow_add, Nat.mod_mul]

theorem readFrequencies_ok {data : List Byte} {stop : Nat} (hstop : stop ≤ data.length) (freqs : List Nat)
    (hf : ∀ f ∈ freqs, f ≤ 1047) {s : Fs} {pad : List Bool} (hpad : pad.length < 8) (hv : s.value < 2 ^ s.n) (hn : s.n ≤ 32)
    (ho : s.off ≤ stop) (hr : fsRem data stop s = freqs.flatMap frequencyCode ++ pad) :
    readFrequencies data stop freqs.length s = .ok (freqs, stop) := by
  induction freqs generalizing s with
  | nil =>
    have := congrArg List.length hr
    simp only [fsRem, List.length_append, lsb_length, byteBits_length, List.length_drop, List.length_take, List.flatMap_nil,
      List.length_nil] at this
    have e : s.off = stop := by omega
    unfold readFrequencies
    simp [e]
  | cons f fs ih =>
    rw [List.length_cons]
    unfold readFrequencies
    obtain ⟨t, t1, t2, t3, t4, t5, t6⟩ := fillTable_ok hstop 4 hv hn ho (by omega)
    rw [t1, R.ok_bind]
    simp only
    rw [← t6, List.flatMap_cons, List.append_assoc] at hr
    have hc14 := code_le f
    have hcn : (frequencyCode f).length ≤ t.n := by
      rcases t5 with h | h
      · omega
      · have := congrArg List.length hr
        simp only [fsRem, List.length_append, lsb_length, byteBits_length, List.length_drop, List.length_take] at this
        omega
    obtain ⟨j, hj⟩ : ∃ j, t.n = (frequencyCode f).length + j := ⟨t.n - (frequencyCode f).length, by omega⟩
    unfold fsRem at hr
    rw [hj, lsb_split, List.append_assoc] at hr
    obtain ⟨r1, r2⟩ := List.append_inj hr (by simp)
    have hfreq := frequency_ok (hf f List.mem_cons_self) (v := t.value) (by rw [← val_lsb, r1])
    rw [hfreq]
    simp only
    rw [R.subU_ok hcn, R.ok_bind, Nat.shiftRight_eq_div_pow, hj, Nat.add_sub_cancel_left]
    rw [ih (fun x hx => hf x (List.mem_cons_of_mem _ hx)) (s := ⟨t.off, t.value / 2 ^ (frequencyCode f).length, j⟩) ?_ (by simp only; omega) t4 r2]
    · rfl
    · simp only
      rw [Nat.div_lt_iff_lt_mul (Nat.two_pow_pos _), ← Nat.pow_add, Nat.add_comm, ← hj]; exact t2

/-! ## Numbers -/

theorem le_eq : ∀ k v, le k v = leBytes k v
  | 0, _ => rfl
  | k + 1, v => by
    rw [le, leBytes, le_eq]
    congr 1
    apply BitVec.eq_of_toNat_eq
    simp

theorem le_length (k v : Nat) : (le k v).length = k := by
  induction k generalizing v with
  | zero => rfl
  | succ k ih => simp [le, ih]

theorem leNat_le {k v : Nat} (h : v < 256 ^ k) : leNat (le k v) = v := by
  rw [le_eq, leNat_leBytes, Nat.mod_eq_of_lt h]

theorem and_mask (v k : Nat) : v &&& (2 ^ k - 1) = v % 2 ^ k := Nat.and_two_pow_sub_one_eq_mod _ _

/-- The header values of a block. -/
def header (c : Coded) : Header where
  literals := c.literals.length
  lmdValues := c.steps.length
  literalsSize := c.literalData.length
  lmdSize := c.stepData.length
  state0 := (codeLiterals c.literalFreqs c.literalEnd c.literals).1.a
  state1 := (codeLiterals c.literalFreqs c.literalEnd c.literals).1.b
  state2 := (codeLiterals c.literalFreqs c.literalEnd c.literals).1.c
  state3 := (codeLiterals c.literalFreqs c.literalEnd c.literals).1.d
  lState := (codeSteps c c.steps).1.l
  mState := (codeSteps c c.steps).1.m
  dState := (codeSteps c c.steps).1.d
  literalBits := -c.literalUnused
  lmdBits := -c.stepUnused

theorem table_length {c : Coded} (h : c.Wf) : 90 ≤ c.table.length ∧ c.table.length ≤ 630 := by
  obtain ⟨⟨r, hr⟩, h2⟩ := h.table
  have key : ∀ fs : List Nat, 2 * fs.length ≤ (fs.flatMap frequencyCode).length ∧ (fs.flatMap frequencyCode).length ≤ 14 * fs.length := by
    intro fs
    induction fs with
    | nil => simp
    | cons f fs ih =>
      have h1 := code_le f
      have h3 : 2 ≤ (frequencyCode f).length := by rw [code_length]; split_ifs <;> omega
      rw [List.flatMap_cons, List.length_append, List.length_cons]
      omega
  have hk := key (c.lFreqs ++ c.mFreqs ++ c.dFreqs ++ c.literalFreqs)
  have hlen : (c.lFreqs ++ c.mFreqs ++ c.dFreqs ++ c.literalFreqs).length = 360 := by
    simp only [List.length_append, h.l.1, h.m.1, h.d.1, h.literal.1]
  have := congrArg List.length hr
  rw [List.length_append] at this
  rw [byteBits_length] at this h2
  omega

theorem slice_mid {a b c : List Byte} {i j : Nat} (hi : a.length = i) (hj : i + b.length = j) :
    R.slice (a ++ (b ++ c)) i j = .ok b := by
  rw [R.slice_ok (by omega) (by simp; omega)]
  subst hi
  rw [List.drop_left, ← hj, Nat.add_sub_cancel_left, List.take_left]

theorem u64_at {a c : List Byte} {v i : Nat} (hi : a.length = i) (hv : v < 2 ^ 64) :
    u64le (a ++ (le 8 v ++ c)) i = .ok v := by
  unfold u64le
  rw [slice_mid hi (by rw [le_length]), R.ok_bind, leNat_le (by omega)]; rfl

theorem u32_at {a c : List Byte} {v i : Nat} (hi : a.length = i) (hv : v < 2 ^ 32) :
    u32le (a ++ (le 4 v ++ c)) i = .ok v := by
  unfold u32le
  rw [slice_mid hi (by rw [le_length]), R.ok_bind, leNat_le (by omega)]; rfl

theorem readV2_ok {c : Coded} (h : c.Wf) :
    readV2 (c.encode.take 24) = .ok (header c, 32 + c.table.length) := by
  obtain ⟨s1, s2, s3, s4⟩ := codeLiterals_below h.literal.2.1 h.literalEnd c.literals h.has
  obtain ⟨t1, t2, t3⟩ := codeSteps_below h c.steps h.steps
  obtain ⟨_, ht⟩ := table_length h
  obtain ⟨u1, u2⟩ := h.unused
  obtain ⟨z1, z2⟩ := h.sizes
  have hcount := h.count
  have hsc := h.stepCount
  unfold Coded.encode header
  simp only
  generalize (codeLiterals c.literalFreqs c.literalEnd c.literals).1 = s at *
  generalize (codeSteps c c.steps).1 = t at *
  generalize c.literals.length = n at *
  generalize c.literalData.length = ld at *
  generalize c.stepData.length = sd at *
  generalize c.steps.length = k at *
  generalize c.table.length = tl at *
  obtain ⟨A, hA⟩ : ∃ A, A = n + 2 ^ 20 * ld + 2 ^ 40 * k + 2 ^ 60 * (7 - c.literalUnused) := ⟨_, rfl⟩
  obtain ⟨B, hB⟩ : ∃ B, B = s.a + 2 ^ 10 * s.b + 2 ^ 20 * s.c + 2 ^ 30 * s.d + 2 ^ 40 * sd + 2 ^ 60 * (7 - c.stepUnused) := ⟨_, rfl⟩
  obtain ⟨C, hC⟩ : ∃ C, C = 32 + tl + 2 ^ 32 * t.l + 2 ^ 42 * t.m + 2 ^ 52 * t.d := ⟨_, rfl⟩
  rw [← hA, ← hB, ← hC]
  have e : ∀ r : List Byte, (le 8 A ++ le 8 B ++ le 8 C ++ r).take 24 = le 8 A ++ (le 8 B ++ (le 8 C ++ [])) := by
    intro r
    rw [List.take_left' (by simp [le_length])]
    simp
  rw [List.append_assoc, List.append_assoc, e]
  unfold readV2
  have a0 := u64_at (a := []) (c := le 8 B ++ (le 8 C ++ [])) (v := A) (i := 0) rfl (by omega)
  have a1 := u64_at (a := le 8 A) (c := le 8 C ++ []) (v := B) (i := 8) (le_length _ _) (by omega)
  have a2 := u64_at (a := le 8 A ++ le 8 B) (c := []) (v := C) (i := 16) (by simp [le_length]) (by omega)
  rw [List.append_assoc] at a2
  rw [List.nil_append] at a0
  rw [R.require_true (by simp [le_length]), R.ok_bind, a0, R.ok_bind, a1, R.ok_bind, a2, R.ok_bind]
  simp only [Nat.shiftRight_eq_div_pow, show (0xffffffff : Nat) = 2 ^ 32 - 1 from rfl, show (0x000fffff : Nat) = 2 ^ 20 - 1 from rfl,
    show (0x3ff : Nat) = 2 ^ 10 - 1 from rfl, show (7 : Nat) = 2 ^ 3 - 1 from rfl, and_mask]
  have hsz : C % 2 ^ 32 = 32 + tl := by omega
  rw [hsz, R.require_true (by omega), R.ok_bind]
  refine congrArg R.ok (Prod.ext ?_ rfl)
  simp only [Header.mk.injEq]
  refine ⟨by omega, by omega, by omega, by omega, by omega, by omega, by omega, by omega, by omega, by omega, by omega, ?_, ?_⟩
  · omega
  · omega

/-- Reading the header of a coded block that is followed by at least 8 bytes. -/
theorem blockV2_ok {c : Coded} (h : c.Wf) {data rest : List Byte} {off : Nat} (ho : off ≤ data.length)
    (hd : data.drop off = c.encode ++ rest) (h8 : 8 ≤ c.literalData.length + c.stepData.length + rest.length) (old : List Nat) :
    blockV2 data off old = .ok (header c, c.lFreqs ++ c.mFreqs ++ c.dFreqs ++ c.literalFreqs, off + 24 + c.table.length) := by
  obtain ⟨ht1, ht2⟩ := table_length h
  have henc : c.encode.length = 24 + c.table.length + c.literalData.length + c.stepData.length := by
    simp [Coded.encode, le_length]; omega
  have hlen : data.length = off + c.encode.length + rest.length := by
    have := congrArg List.length hd
    simp at this
    omega
  unfold blockV2
  rw [R.require_true (by omega), R.ok_bind, R.slice_ok (by omega) (by omega), R.ok_bind, Nat.add_sub_cancel_left, hd,
    List.take_append_of_le_length (by omega), readV2_ok h, R.ok_bind]
  simp only
  rw [R.subU_ok ho, R.ok_bind, R.require_true (by omega), R.ok_bind]
  unfold frequencyTable
  rw [if_pos (by omega), Nat.add_sub_cancel_left]
  obtain ⟨⟨pad, hp⟩, hp2⟩ := h.table
  have h360 : (c.lFreqs ++ c.mFreqs ++ c.dFreqs ++ c.literalFreqs).length = 360 := by
    simp only [List.length_append, h.l.1, h.m.1, h.d.1, h.literal.1]
  have htab : (data.take (off + 24 + c.table.length)).drop (off + 24) = c.table := by
    rw [List.drop_take, Nat.add_sub_cancel_left, ← List.drop_drop, hd, Coded.encode]
    simp only [List.append_assoc]
    have e24 : ∀ A B C r, List.drop 24 (le 8 A ++ (le 8 B ++ (le 8 C ++ (c.table ++ r)))) = c.table ++ r := by
      intro A B C r
      rw [← List.append_assoc, ← List.append_assoc, List.drop_left' (by simp [le_length])]
    rw [e24, List.take_left]
  have hrf := readFrequencies_ok (data := data) (stop := off + 24 + c.table.length) (by omega)
    (c.lFreqs ++ c.mFreqs ++ c.dFreqs ++ c.literalFreqs)
    (by
      intro f hf
      simp only [List.mem_append] at hf
      rcases hf with ((hf | hf) | hf) | hf
      · exact h.l.2.2 f hf
      · exact h.m.2.2 f hf
      · exact h.d.2.2 f hf
      · exact h.literal.2.2 f hf)
    (s := ⟨off + 24, 0, 0⟩) (pad := pad)
    (by have := congrArg List.length hp; rw [List.length_append] at this; omega)
    (by simp) (by simp) (by simp) (by simp only [fsRem, htab, hp]; rfl)
  rw [h360] at hrf
  rw [hrf, R.ok_bind]
  rfl

theorem tables_ok {c : Coded} (h : c.Wf) :
    ∃ t, tables (c.lFreqs ++ c.mFreqs ++ c.dFreqs ++ c.literalFreqs) = .ok t ∧ TablesOk c t := by
  obtain ⟨tl, el, _⟩ := entries_ok (n := 6) (by omega) c.lFreqs 0 0 (by have := h.l.2.1; omega)
  obtain ⟨tm, em, _⟩ := entries_ok (n := 6) (by omega) c.mFreqs 0 0 (by have := h.m.2.1; omega)
  obtain ⟨td, ed, _⟩ := entries_ok (n := 8) (by omega) c.dFreqs 0 0 (by have := h.d.2.1; omega)
  obtain ⟨tt, et, _⟩ := entries_ok (n := 10) (by omega) c.literalFreqs 0 0 (by have := h.literal.2.1; omega)
  have h1 : buildValueTable 64 c.lFreqs lBits lBase = .ok (tl.map (valueEntry lBits lBase)) := by
    unfold buildValueTable; rw [show (64 : Nat) = 2 ^ 6 from rfl, el]; rfl
  have h2 : buildValueTable 64 c.mFreqs mBits mBase = .ok (tm.map (valueEntry mBits mBase)) := by
    unfold buildValueTable; rw [show (64 : Nat) = 2 ^ 6 from rfl, em]; rfl
  have h3 : buildValueTable 256 c.dFreqs dBits dBase = .ok (td.map (valueEntry dBits dBase)) := by
    unfold buildValueTable; rw [show (256 : Nat) = 2 ^ 8 from rfl, ed]; rfl
  have h4 : buildTable 1024 c.literalFreqs = .ok tt := et
  have l1 := h.l.1
  have l2 := h.m.1
  have l3 := h.d.1
  have l4 := h.literal.1
  refine ⟨⟨_, _, _, _⟩, ?_, h1, h2, h3, et⟩
  unfold tables
  simp only [List.append_assoc]
  rw [List.take_left' l1, h1, R.ok_bind, List.drop_left' l1, List.take_left' l2, h2, R.ok_bind]
  rw [show (40 : Nat) = 20 + 20 from rfl, ← List.drop_drop, List.drop_left' l1, List.drop_left' l2, List.take_left' l3, h3, R.ok_bind]
  rw [show (104 : Nat) = 20 + 20 + 64 from rfl, ← List.drop_drop, ← List.drop_drop, List.drop_left' l1, List.drop_left' l2, List.drop_left' l3,
    ← l4, List.take_length, h4, R.ok_bind]
  rfl

end Keramics.Lzfse
