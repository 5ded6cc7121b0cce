import Verif.Lemmas.LzxBlocks

/-! # LZX decompression of any data stays within bounds and ends -/

namespace Keramics.Lzx
open Keramics.Spec.Huffman Keramics.Huffman
open Keramics.Bzip2 (bits_length bits_zero bits_inj)
open Keramics.Deflate (enc enc_length lens_enc fill_sat build_sat)

theorem delta_sat {sizes : List Byte} {i d : Nat} (h : i < sizes.length) : R.Sat (delta sizes i d) fun _ => True := by
  unfold delta
  refine R.Sat.bind (R.sat_get h) fun v _ => R.sat_pure trivial

theorem times_sat {data : List Byte} {k symbol : Nat} {s0 s : Bs} (h : After data k s0 s) :
    R.Sat (times data symbol s) fun r => 1 ≤ r.1 ∧ After data k s0 r.2 := by
  unfold times
  refine R.sat_ite (fun _ => ?_) fun _ => R.sat_ite (fun _ => ?_) fun _ => R.sat_ite (fun _ => ?_) fun _ => R.sat_err
  all_goals
    refine R.Sat.bind (getValue_sat (by omega) h) fun r hr => ?_
    obtain ⟨v, s1⟩ := r
    exact R.sat_pure ⟨by simp only; omega, hr.2⟩

theorem repeated_sat {data : List Byte} {t : Tree} {pre : List Nat} (ht : IsTree t pre) {sizes : List Byte} {i symbol k : Nat} {s0 s : Bs}
    (hi : i < sizes.length) (h : After data k s0 s) : R.Sat (repeated data t sizes i symbol s) fun r => After data k s0 r.2 := by
  unfold repeated
  refine R.sat_ite (fun _ => R.sat_ok h) fun _ => ?_
  refine R.Sat.bind (symbol_sat ht h) fun r hr => ?_
  obtain ⟨v, s1⟩ := r
  refine R.Sat.bind R.sat_require fun _ _ => ?_
  refine R.Sat.bind (delta_sat hi) fun _ _ => R.sat_pure hr.2

theorem sizesStep_sat {data : List Byte} {t : Tree} {pre : List Nat} (ht : IsTree t pre) {n : Nat} {sizes : List Byte} (hl : sizes.length = n) {i symbol k : Nat}
    {s0 s : Bs} (hi : i < n) (h : After data k s0 s) :
    R.Sat (sizesStep data t n sizes i symbol s) fun r => r.1.length = n ∧ i < r.2.1 ∧ r.2.1 ≤ n ∧ After data k s0 r.2.2 := by
  unfold sizesStep
  refine R.sat_ite (fun _ => ?_) fun _ => ?_
  · refine R.Sat.bind (delta_sat (by omega)) fun v _ => ?_
    rw [R.set_ok (by omega), R.ok_bind]
    exact R.sat_pure ⟨by simpa using hl, by simp only; omega, by simp only; omega, h⟩
  · refine R.Sat.bind (times_sat h) fun r hr => ?_
    obtain ⟨count, s1⟩ := r
    refine R.Sat.bind (repeated_sat ht (by omega) hr.2) fun r hr2 => ?_
    obtain ⟨v, s2⟩ := r
    simp only at hr hr2 ⊢
    rw [R.subU_ok (by omega), R.ok_bind]
    obtain ⟨c, hc, hc1, hc2⟩ : ∃ c, (if count > n - i then n - i else count) = c ∧ 1 ≤ c ∧ i + c ≤ n := by
      by_cases hh : count > n - i
      · exact ⟨n - i, by rw [if_pos hh], by omega, by omega⟩
      · exact ⟨count, by rw [if_neg hh], by omega, by omega⟩
    rw [hc]
    refine R.Sat.bind (fill_sat v c sizes i (by omega)) fun r hr3 => ?_
    obtain ⟨sizes', i'⟩ := r
    exact R.sat_pure ⟨by simp only at hr3 ⊢; omega, by simp only at hr3 ⊢; omega, by simp only at hr3 ⊢; omega, hr2⟩

theorem sizesLoop_sat {data : List Byte} {t : Tree} {pre : List Nat} (ht : IsTree t pre) {n k : Nat} {s0 : Bs} (fuel : Nat) : ∀ (sizes : List Byte) (i : Nat) (s : Bs),
    sizes.length = n → n ≤ i + fuel → After data k s0 s → R.Sat (sizesLoop data t n fuel sizes i s) fun r => r.1.length = n ∧ After data k s0 r.2 := by
  induction fuel with
  | zero =>
    intro sizes i s hl hf h
    unfold sizesLoop
    rw [if_neg (by omega)]
    exact R.sat_ok ⟨hl, h⟩
  | succ fuel ih =>
    intro sizes i s hl hf h
    unfold sizesLoop
    refine R.sat_ite (fun hlt => ?_) fun _ => R.sat_ok ⟨hl, h⟩
    refine R.Sat.bind (symbol_sat ht h) fun r hr => ?_
    obtain ⟨v, s1⟩ := r
    refine R.Sat.bind (sizesStep_sat ht hl hlt hr.2) fun r hr2 => ?_
    obtain ⟨sizes', i', s2⟩ := r
    simp only at hr2 ⊢
    exact ih sizes' i' s2 hr2.1 (by omega) hr2.2.2.2

theorem flatMap_bits_length (k : Nat) (l : List Nat) : (l.flatMap (bits k)).length = l.length * k := by
  induction l with
  | nil => simp
  | cons x l ih => rw [List.flatMap_cons, List.length_append, ih, bits_length, List.length_cons, Nat.add_mul]; omega

/-- Reading code sizes takes at least 80 bits; it fails if only zeros are left. -/
theorem readCodeSizes_sat {data : List Byte} {sizes : List Byte} {n k : Nat} (hl : sizes.length = n) {s0 s : Bs} (h : After data k s0 s) :
    R.Sat (readCodeSizes data sizes n s) fun r => r.1.length = n ∧ After data (k + 80) s0 r.2 ∧ ∃ b ∈ rem data s, b = true := by
  unfold readCodeSizes
  obtain ⟨pre, s1, e1, hlen, hpre, ht⟩ := readSizes_spec (data := data) (k := 4) (by omega) 20 h.1
  rw [e1, R.ok_bind]
  simp only
  by_cases hv : Valid 15 (lens (enc pre))
  swap
  · rw [build_err (new 20 15) (enc pre) (fun h => hv h.2), R.err_bind]
    exact R.sat_err
  obtain ⟨t, e2, _, _, htree⟩ := build_ok (new 20 15) (enc pre) (by simp [hlen]) (by simp [new, hlen]) hv
  rw [e2, R.ok_bind]
  have ha : After data (k + 80) s0 s1 := by
    have := h.took ht
    rw [flatMap_bits_length, hlen] at this
    exact this
  refine R.Sat.mono (sizesLoop_sat htree n sizes 0 s1 hl (by omega) ha) fun r hr => ⟨hr.1, hr.2, ?_⟩
  by_contra hc
  push Not at hc
  rw [lens_enc (fun x hx => by have := hpre x hx; omega)] at hv
  obtain ⟨-, ⟨l, hl1, hl2⟩, -⟩ := hv
  have hbits : ∀ b ∈ pre.flatMap (bits 4), b = false := by
    obtain ⟨_, _, pad, e, _, _⟩ := ht
    intro b hb
    have : b ∈ rem data s ++ List.replicate pad false := by rw [e]; exact List.mem_append_left _ hb
    rcases List.mem_append.1 this with hb' | hb'
    · have := hc b hb'
      cases b <;> simp_all
    · exact (List.mem_replicate.1 hb').2
  have hz : bits 4 l = bits 4 0 := by
    rw [bits_zero, List.eq_replicate_iff]
    exact ⟨bits_length 4 l, fun b hb => hbits b (List.mem_flatMap.2 ⟨l, hl1, hb⟩)⟩
  exact hl2 (bits_inj (hpre l hl1) (by omega) hz)

theorem readAligned_sat {data : List Byte} {type k : Nat} {s0 s : Bs} (h : After data k s0 s) :
    R.Sat (readAligned data type s) fun r => (∃ al, IsAligned r.1 al) ∧ After data k s0 r.2 := by
  unfold readAligned
  refine R.sat_ite (fun _ => ?_) fun _ => R.sat_ok ⟨⟨none, trivial⟩, h⟩
  obtain ⟨l, s1, e1, hlen, hl, ht⟩ := readSizes_spec (data := data) (k := 3) (by omega) 8 h.1
  rw [e1, R.ok_bind]
  simp only
  refine R.Sat.bind (build_sat 256 16 (by omega) (enc l) (by simp [hlen])) fun t htree => ?_
  refine R.sat_pure ⟨⟨some _, htree, ?_⟩, (h.took ht).mono (by omega)⟩
  rw [lens_length, enc_length, hlen]

theorem footer_sat {aligned : Option Tree} {slot : Nat} (hs : slot < 30) : R.Sat (footer aligned slot) fun k => k ≤ 13 ∧ (aligned.isSome ∧ slot ≥ 8 → k ≤ 10) := by
  unfold footer
  rw [footer_get hs, R.ok_bind]
  have h1 := footer_le hs
  have h2 := footer_ge hs
  refine R.sat_ite (fun h => ?_) fun h => R.sat_pure ⟨h1, fun h' => absurd h' h⟩
  rw [R.subU_ok (h2.2 h.2)]
  exact R.sat_ok ⟨by omega, fun _ => by omega⟩

theorem alignedBits_sat {data : List Byte} {aligned : Option Tree} {al : Option (List Nat)} (ha : IsAligned aligned al) {slot d k : Nat} (hd : d < 2 ^ 13)
    {s0 s : Bs} (h : After data k s0 s) : R.Sat (alignedBits data aligned slot d s) fun r => r.1 < 2 ^ 17 ∧ After data k s0 r.2 := by
  unfold alignedBits
  cases aligned with
  | none => exact R.sat_ok ⟨by simp only; omega, h⟩
  | some t =>
    cases al with
    | none => exact ha.elim
    | some al =>
      simp only
      refine R.sat_ite (fun _ => ?_) fun _ => R.sat_ok ⟨by simp only; omega, h⟩
      refine R.Sat.bind (symbol_sat ha.1 h) fun r hr => ?_
      obtain ⟨v, s1⟩ := r
      have hv : v < 8 := Nat.lt_of_lt_of_le (coded_lt hr.1) ha.2
      refine R.sat_pure ⟨?_, hr.2⟩
      simp only
      rw [Nat.shiftLeft_eq, Nat.mod_eq_of_lt (by omega), ← Nat.shiftLeft_eq, shl_or (k := 3) (by omega)]
      omega

theorem readDistance_sat {data : List Byte} {aligned : Option Tree} {al : Option (List Nat)} (ha : IsAligned aligned al) {slot k : Nat} (hs : slot < 30) (r : Recent)
    {s0 s : Bs} (h : After data k s0 s) : R.Sat (readDistance data aligned slot r s) fun r => After data k s0 r.2.2 := by
  unfold readDistance
  refine R.sat_ite (fun _ => R.sat_ok h) fun h3 => ?_
  refine R.Sat.bind (footer_sat hs) fun f hf => ?_
  refine R.Sat.bind (getValue_sat (by omega) h) fun r hr => ?_
  obtain ⟨d, s1⟩ := r
  have hd : d < 2 ^ 13 := Nat.lt_of_lt_of_le hr.1 (Nat.pow_le_pow_right (by omega) hf.1)
  refine R.Sat.bind (alignedBits_sat ha hd hr.2) fun r hr2 => ?_
  obtain ⟨d2, s2⟩ := r
  simp only at hr2 ⊢
  have hb := base_bounds hs (by omega)
  rw [base_get hs, R.ok_bind, R.check_true (by omega), R.ok_bind]
  exact R.sat_pure hr2.2

theorem readLength_sat {data : List Byte} {t : Tree} {ls : List Nat} (ht : IsTree t ls) {symbol k : Nat} {s0 s : Bs} (h : After data k s0 s) :
    R.Sat (readLength data t symbol s) fun r => 2 ≤ r.1 ∧ After data k s0 r.2 := by
  unfold readLength
  refine R.sat_ite (fun _ => ?_) fun _ => R.sat_ok ⟨by simp only; omega, h⟩
  refine R.Sat.bind (symbol_sat ht h) fun r hr => ?_
  obtain ⟨v, s1⟩ := r
  exact R.sat_pure ⟨by simp only; omega, hr.2⟩

theorem step_sat {data : List Byte} {literals lengths : Tree} {ll : List Nat} (hl : IsTree lengths ll)
    {aligned : Option Tree} {al : Option (List Nat)} (ha : IsAligned aligned al) {k : Nat} {s0 s : Bs} (h : After data k s0 s) (r : Recent)
    {buf : List Byte} {o symbol : Nat} (ho : o ≤ buf.length) (hs : symbol < 496) :
    R.Sat (step data literals lengths aligned s r buf o symbol) fun x => After data k s0 x.1 ∧ x.2.2.1.length = buf.length ∧ o < x.2.2.2 ∧
      x.2.2.2 ≤ buf.length ∧ x.2.2.1.drop x.2.2.2 = buf.drop x.2.2.2 := by
  unfold step
  refine R.sat_ite (fun _ => ?_) fun _ => ?_
  · refine R.Sat.bind R.sat_require fun _ h1 => ?_
    rw [R.set_ok h1, R.ok_bind]
    refine R.sat_pure ⟨h, by simp, by simp only; omega, by simp only; omega, ?_⟩
    simp only
    rw [List.drop_set_of_lt (by omega)]
  · refine R.Sat.bind (readLength_sat hl h) fun x hx => ?_
    obtain ⟨size, s1⟩ := x
    refine R.Sat.bind (readDistance_sat ha (by omega) r hx.2) fun x hx2 => ?_
    obtain ⟨d, r', s2⟩ := x
    simp only at hx hx2 ⊢
    refine R.Sat.bind R.sat_require fun _ h1 => ?_
    rw [R.subU_ok ho, R.ok_bind]
    refine R.Sat.bind R.sat_require fun _ h2 => ?_
    rw [R.subU_ok h1, R.ok_bind]
    refine R.Sat.bind (Lz.copyMatch_sat _ buf o _ (by omega) (by omega)) fun b hb => ?_
    exact R.sat_pure ⟨hx2, hb.1, by simp only; omega, by simp only; omega, hb.2⟩

theorem huffBlock_sat {data : List Byte} {literals lengths : Tree} {ml ll : List Nat} (hm : IsTree literals ml) (hml : ml.length ≤ 496) (hl : IsTree lengths ll)
    {aligned : Option Tree} {al : Option (List Nat)} (ha : IsAligned aligned al) {k stop : Nat} {s0 : Bs} (fuel : Nat) : ∀ (s : Bs) (r : Recent) (buf : List Byte) (o : Nat),
    After data k s0 s → o ≤ buf.length → stop ≤ o + fuel →
    R.Sat (huffBlock data literals lengths aligned stop fuel s r buf o) fun x => After data k s0 x.1 ∧ x.2.2.1.length = buf.length ∧ o ≤ x.2.2.2 ∧
      x.2.2.2 ≤ buf.length ∧ x.2.2.1.drop x.2.2.2 = buf.drop x.2.2.2 := by
  induction fuel with
  | zero =>
    intro s r buf o h ho hf
    unfold huffBlock
    rw [if_neg (by omega)]
    exact R.sat_ok ⟨h, rfl, Nat.le_refl _, ho, rfl⟩
  | succ fuel ih =>
    intro s r buf o h ho hf
    unfold huffBlock
    refine R.sat_ite (fun _ => ?_) fun _ => R.sat_ok ⟨h, rfl, Nat.le_refl _, ho, rfl⟩
    refine R.Sat.bind (symbol_sat hm h) fun x hx => ?_
    obtain ⟨symbol, s1⟩ := x
    have hs := coded_lt hx.1
    refine R.Sat.bind (step_sat (literals := literals) hl ha hx.2 r ho (by simp only at hs; omega)) fun x hx2 => ?_
    obtain ⟨s2, r', buf', o'⟩ := x
    obtain ⟨q1, q2, q3, q4, q5⟩ := hx2
    simp only at q1 q2 q3 q4 q5 ⊢
    refine R.Sat.mono (ih s2 r' buf' o' q1 (by omega) (by omega)) ?_
    rintro x ⟨p1, p2, p3, p4, p5⟩
    refine ⟨p1, by omega, by omega, by omega, ?_⟩
    rw [p5, Lz.drop_later q5 p3]

/-- What the state keeps: the sizes of the tables, and of the buffer, of which nothing is written beyond the offset. -/
structure StOk (buf0 : List Byte) (st : St) : Prop where
  l1 : st.main1.length = 256
  l2 : st.main2.length = 240
  l3 : st.match_.length = 249
  buf : st.buf.length = buf0.length
  o : st.o ≤ buf0.length
  rest : st.buf.drop st.o = buf0.drop st.o

theorem codedBlock_sat {data : List Byte} {type size k : Nat} {st : St} {buf : List Byte} (hst : StOk buf st) {s0 s : Bs} (h0 : Inv data s0) (h : After data k s0 s) :
    R.Sat (codedBlock data type size st s) fun r => StOk buf r.1 ∧ Inv data r.2 ∧ s0.off < r.2.off ∧ r.2.off % 2 = s0.off % 2 := by
  unfold codedBlock
  refine R.Sat.bind (readAligned_sat h) fun x hx => ?_
  obtain ⟨aligned, s1⟩ := x
  obtain ⟨⟨al, ha⟩, h1⟩ := hx
  simp only at ha h1 ⊢
  refine R.Sat.bind (readCodeSizes_sat hst.l1 h1) fun x hx => ?_
  obtain ⟨main1, s2⟩ := x
  obtain ⟨m1, h2, -⟩ := hx
  simp only at m1 h2 ⊢
  refine R.Sat.bind (readCodeSizes_sat hst.l2 h2) fun x hx => ?_
  obtain ⟨main2, s3⟩ := x
  obtain ⟨m2, h3, hb⟩ := hx
  simp only at m2 h3 ⊢
  -- a word was read: otherwise the second table would have been all zeros
  have hdry : ¬ Dry data s0 := by
    intro hd
    have hz := h2.zeros h0 (by omega) hd
    obtain ⟨b, hb1, hb2⟩ := hb
    rw [hz b hb1] at hb2
    exact absurd hb2 (by simp)
  refine R.Sat.bind (build_sat (256 + 240) 16 (by omega) (main1 ++ main2) (by simp; omega)) fun tm hm => ?_
  refine R.Sat.bind (readCodeSizes_sat hst.l3 h3) fun x hx => ?_
  obtain ⟨match_, s4⟩ := x
  obtain ⟨m3, h4, -⟩ := hx
  simp only at m3 h4 ⊢
  refine R.Sat.bind (build_sat 249 16 (by omega) match_ (by omega)) fun tl hl => ?_
  refine R.Sat.bind (huffBlock_sat hm (by rw [lens_length]; simp; omega) hl ha size s4 st.recent st.buf st.o h4 (by rw [hst.buf]; exact hst.o) (Nat.le_refl _)) fun x hx => ?_
  obtain ⟨s5, r, buf', o⟩ := x
  obtain ⟨q1, q2, q3, q4, q5⟩ := hx
  simp only at q1 q2 q3 q4 q5 ⊢
  have hbl := hst.buf
  refine R.sat_pure ⟨⟨m1, m2, m3, by simp only; omega, by simp only; omega, ?_⟩, q1.1, q1.advance h0 (by omega) hdry, q1.even⟩
  simp only
  rw [q5, Lz.drop_later hst.rest q3]

theorem rawBlock_sat {data : List Byte} {size : Nat} {st : St} {buf : List Byte} (hst : StOk buf st) {s : Bs} (h : Inv data s) :
    R.Sat (rawBlock data size st s) fun r => StOk buf r.1 ∧ Inv data r.2 ∧ s.off < r.2.off := by
  unfold rawBlock
  have hoff := h.off
  have hu : ∀ o, o + 4 ≤ data.length → ∃ v, u32le data o = .ok v := by
    intro o ho
    unfold u32le
    rw [R.slice_ok (by omega) (by omega), R.ok_bind]
    exact ⟨_, rfl⟩
  rw [R.subU_ok hoff, R.ok_bind]
  refine R.Sat.bind R.sat_require fun _ h12 => ?_
  obtain ⟨r0, e0⟩ := hu s.off (by omega)
  obtain ⟨r1, e1⟩ := hu (s.off + 4) (by omega)
  obtain ⟨r2, e2⟩ := hu (s.off + 8) (by omega)
  rw [e0, R.ok_bind, e1, R.ok_bind, e2, R.ok_bind]
  refine R.Sat.bind R.sat_require fun _ _ => ?_
  refine R.Sat.bind R.sat_require fun _ _ => ?_
  refine R.Sat.bind R.sat_require fun _ _ => ?_
  rw [R.subU_ok (by omega), R.ok_bind]
  generalize hm : min size (data.length - (s.off + 12)) = m
  have hbl := hst.buf
  have hco : R.Sat (copyBytes data m st.buf st.o { s with off := s.off + 12 }) fun r =>
      r.1.length = st.buf.length ∧ st.o + m ≤ st.buf.length ∧ r.1.drop (st.o + m) = st.buf.drop (st.o + m) ∧ r.2 = ⟨s.off + 12 + m, 0, 0⟩ := by
    unfold copyBytes
    refine R.Sat.bind R.sat_require fun _ h1 => ?_
    refine R.Sat.bind R.sat_require fun _ h2 => ?_
    simp only at h1 h2 ⊢
    rw [R.slice_ok (by omega) h1, R.ok_bind, R.splice_ok (by omega) h2 (by simp; omega), R.ok_bind]
    refine R.sat_pure ⟨by simp; omega, h2, ?_, rfl⟩
    simp only
    rw [List.drop_left' (by simp; omega)]
  refine R.Sat.bind hco fun x hx => ?_
  obtain ⟨buf', s'⟩ := x
  obtain ⟨q1, q2, q3, q4⟩ := hx
  simp only at q1 q2 q3 q4 ⊢
  subst q4
  refine R.sat_pure ⟨⟨hst.l1, hst.l2, hst.l3, by simp only; omega, by simp only; omega, ?_⟩, ⟨by simp, by simp, by simp only; omega⟩, by simp only; omega⟩
  simp only
  rw [q3, Lz.drop_later hst.rest (Nat.le_add_right _ _)]

theorem readSize_sat {data : List Byte} {k : Nat} {s0 s : Bs} (h : After data k s0 s) : R.Sat (readSize data s) fun r => After data k s0 r.2 := by
  unfold readSize
  refine R.Sat.bind (getValue_sat (by omega) h) fun r hr => ?_
  obtain ⟨v, s1⟩ := r
  simp only at hr ⊢
  refine R.sat_ite (fun _ => ?_) fun _ => R.sat_pure hr.2
  exact (getValue_sat (by omega) hr.2).mono fun _ h => h.2

theorem block_sat {data : List Byte} {st : St} {buf : List Byte} (hst : StOk buf st) {s : Bs} (h : Inv data s) :
    R.Sat (block data st s) fun r => StOk buf r.1 ∧ Inv data r.2 ∧ s.off < r.2.off := by
  unfold block
  refine R.Sat.bind (getValue_sat (by omega) (After.refl h)) fun r hr => ?_
  obtain ⟨type, s1⟩ := r
  refine R.Sat.bind (readSize_sat hr.2) fun r hr2 => ?_
  obtain ⟨size, s2⟩ := r
  simp only at hr2 ⊢
  refine R.sat_ite (fun _ => (codedBlock_sat hst h hr2).mono fun _ hx => ⟨hx.1, hx.2.1, hx.2.2.1⟩) fun _ => R.sat_ite (fun _ => ?_) fun _ => R.sat_err
  have := hr2.off
  exact (rawBlock_sat hst hr2.1).mono fun _ hx => ⟨hx.1, hx.2.1, by omega⟩

theorem blocks_sat {data buf : List Byte} (fuel : Nat) : ∀ (st : St) (s : Bs), StOk buf st → Inv data s → data.length ≤ s.off + fuel →
    R.Sat (blocks data fuel st s) (StOk buf) := by
  induction fuel with
  | zero =>
    intro st s hst h hf
    unfold blocks
    rw [if_neg (by omega)]
    exact R.sat_ok hst
  | succ fuel ih =>
    intro st s hst h hf
    unfold blocks
    refine R.sat_ite (fun _ => R.sat_ite (fun _ => R.sat_ok hst) fun _ => ?_) fun _ => R.sat_ok hst
    refine R.Sat.bind (block_sat hst h) fun r hr => ?_
    obtain ⟨st', s'⟩ := r
    simp only at hr ⊢
    exact ih st' s' hr.1 hr.2.1 (by omega)

theorem adjustStep_sat {buf : List Byte} {off : Nat} (h : off + 5 ≤ buf.length) :
    R.Sat (adjustStep buf off) fun b => b.length = buf.length ∧ b.drop (off + 5) = buf.drop (off + 5) := by
  unfold adjustStep i32le
  rw [R.slice_ok (by omega) (by omega), R.ok_bind]
  simp only [R.pure_eq, R.ok_bind]
  refine R.sat_ite (fun _ => ?_) fun _ => R.sat_ok ⟨rfl, rfl⟩
  rw [R.splice_ok (by omega) h (by rw [← le_eq, le_length]; omega)]
  refine R.sat_ok ⟨?_, ?_⟩
  · simp only [List.length_append, List.length_take, ← le_eq, le_length, List.length_drop]; omega
  · rw [List.drop_left' (by rw [← le_eq]; simp; omega)]

theorem adjustLoop_sat {size : Nat} (fuel : Nat) : ∀ (buf : List Byte) (off : Nat), size ≤ buf.length → size ≤ off + fuel →
    R.Sat (adjustLoop size fuel buf off) fun b => b.length = buf.length ∧ b.drop size = buf.drop size := by
  induction fuel with
  | zero =>
    intro buf off hs hf
    unfold adjustLoop
    rw [if_neg (by omega)]
    exact R.sat_ok ⟨rfl, rfl⟩
  | succ fuel ih =>
    intro buf off hs hf
    unfold adjustLoop
    refine R.sat_ite (fun hlt => ?_) fun _ => R.sat_ok ⟨rfl, rfl⟩
    refine R.Sat.bind (R.sat_get (by omega)) fun b _ => ?_
    refine R.sat_ite (fun _ => ih buf (off + 1) hs (by omega)) fun _ => ?_
    refine R.Sat.bind (adjustStep_sat (by omega)) fun b hb => ?_
    refine R.Sat.mono (ih b (off + 5) (by omega) (by omega)) fun b' hb' => ⟨by omega, ?_⟩
    rw [hb'.2, Lz.drop_later hb.2 (by omega)]

theorem start_inv (data : List Byte) : Inv data ⟨0, 0, 0⟩ := ⟨by simp, by simp, by simp⟩

theorem decompress_sat (data buf : List Byte) :
    R.Sat (decompress data buf) fun r => r.1.length = buf.length ∧ r.2 ≤ buf.length ∧ r.1.drop r.2 = buf.drop r.2 := by
  unfold decompress
  refine R.Sat.bind (blocks_sat (buf := buf) data.length _ _ ⟨List.length_replicate, List.length_replicate, List.length_replicate, rfl, Nat.zero_le _, rfl⟩ (start_inv data) (Nat.le_add_left _ _)) fun st hst => ?_
  have hb := hst.buf
  have ho := hst.o
  refine R.Sat.bind (P := fun b => b.length = st.buf.length ∧ b.drop st.o = st.buf.drop st.o) ?_ fun b hb' => ?_
  · unfold adjust
    refine R.Sat.bind R.sat_require fun _ _ => ?_
    exact adjustLoop_sat st.o st.buf 0 (by omega) (by omega)
  · exact R.sat_pure ⟨by simp only; omega, ho, by simp only; rw [hb'.2, hst.rest]⟩

end Keramics.Lzx
