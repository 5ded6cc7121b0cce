import Verif.Lemmas.Bzip2Block
import Verif.Props.Checksums

/-! # bzip2 decompression -/

namespace Keramics.Bzip2
open Keramics.Spec.Bzip2 Keramics.Spec.Huffman Keramics.Spec.Bwt Keramics.Huffman

theorem readHeader_signature {data : List Byte} {v : Nat} (hv : v < 2 ^ 48) {s : Bs} {rest : List Bool} (h : At data s (bits 48 v ++ rest)) :
    ∃ s', readHeader data s = readHeaderRest data v s' ∧ At data s' rest := by
  rw [show (48 : Nat) = 24 + 24 from rfl, bits_add, List.append_assoc] at h
  obtain ⟨s1, e1, h1⟩ := getValue_ok (want := 24) (by omega) h (by
    rw [Nat.div_lt_iff_lt_mul (Nat.two_pow_pos _), ← Nat.pow_add]; exact hv)
  rw [← bits_mod 24 24 v (Nat.le_refl _)] at h1
  obtain ⟨s2, e2, h2⟩ := getValue_ok (want := 24) (by omega) h1 (Nat.mod_lt _ (Nat.two_pow_pos _))
  refine ⟨s2, ?_, h2⟩
  unfold readHeader
  rw [e1, R.ok_bind]
  simp only
  rw [e2, R.ok_bind]
  simp only
  rw [shl_or (Nat.mod_lt _ (Nat.two_pow_pos _)), Nat.mul_comm, Nat.div_add_mod]

theorem readHeader_block {data : List Byte} {checksum origin : Nat} (hc : checksum < 2 ^ 32) (ho : origin < 2 ^ 24) {flag : Bool} {s : Bs} {rest : List Bool}
    (h : At data s (bits 48 0x314159265359 ++ bits 32 checksum ++ [flag] ++ bits 24 origin ++ rest)) :
    ∃ s', readHeader data s = .ok (⟨0x314159265359, checksum, origin⟩, s') ∧ At data s' rest := by
  simp only [List.append_assoc] at h
  obtain ⟨s0, e0, h0⟩ := readHeader_signature (by norm_num) h
  obtain ⟨s1, e1, h1⟩ := getValue_ok (want := 32) (by omega) h0 hc
  obtain ⟨s2, e2, h2⟩ := getBit_ok (data := data) (s := s1) h1
  obtain ⟨s3, e3, h3⟩ := getValue_ok (want := 24) (by omega) h2 ho
  refine ⟨s3, ?_, h3⟩
  rw [e0]
  unfold readHeaderRest
  rw [if_neg (by norm_num), if_pos rfl, e1, R.ok_bind]
  simp only
  rw [e2, R.ok_bind]
  simp only
  rw [e3, R.ok_bind]
  rfl

theorem readHeader_end {data : List Byte} {checksum : Nat} (hc : checksum < 2 ^ 32) {s : Bs} {rest : List Bool} (h : At data s (endBits checksum ++ rest)) :
    ∃ s', readHeader data s = .ok (⟨0x177245385090, checksum, 0⟩, s') ∧ At data s' rest := by
  unfold endBits at h
  rw [List.append_assoc] at h
  obtain ⟨s0, e0, h0⟩ := readHeader_signature (by norm_num) h
  obtain ⟨s1, e1, h1⟩ := getValue_ok (want := 32) (by omega) h0 hc
  refine ⟨s1, ?_, h1⟩
  rw [e0]
  unfold readHeaderRest
  rw [if_pos rfl, e1, R.ok_bind]
  rfl

/-- The buffers have their sizes. -/
structure Sizes (st : State) : Prop where
  block : st.block.length = blockSize
  selectors : st.selectors.length = 32769
  stack : st.stack.length = 256

/-- The tables of a block up to the trees. -/
theorem decodeBlock_tables {data : List Byte} {b : Spec.Bzip2.Block} (ht : b.Tables) (ho : b.origin < 100000) {st : State} (hs : Sizes st) {s : Bs} {rest : List Bool}
    (h : At data s (b.tablesBits ++ rest)) :
    ∃ s', At data s' rest ∧ decodeBlock data b.origin st s = (do
      let (trees, s) ← readTrees data ((usedBytes b.used).length + 2) b.trees.length [] s'
      let (x, s) ← readBlock data trees b.trees.length (treeBytes b.selectors ++ st.selectors.drop b.selectors.length) b.selectors.length
        (usedBytes b.used ++ st.stack.drop (usedBytes b.used).length) ((usedBytes b.used).length + 2) st.block s
      let (out, offset) ← reverse x.data x.offset b.origin st.out st.offset
      return ({ st with block := x.data, selectors := treeBytes b.selectors ++ st.selectors.drop b.selectors.length, stack := x.stack, out := out, offset := offset }, s)) := by
  have h6 := ht.trees.2
  have hsel := ht.selectors.2
  unfold Spec.Bzip2.Block.tablesBits at h
  simp only [List.append_assoc] at h
  obtain ⟨s1, e1, h1⟩ := readSymbolStack_ok b.used st.stack hs.stack s _ h
  obtain ⟨s2, e2, h2⟩ := getValue_ok (want := 3) (by omega) h1 (by omega)
  obtain ⟨s3, e3, h3⟩ := getValue_ok (want := 15) (by omega) h2 (by omega)
  obtain ⟨s4, e4, h4⟩ := readSelectors_ok (by omega) b.selectors ht.selector st.selectors (by rw [hs.selectors]; omega) s3 _ h3
  refine ⟨s4, h4, ?_⟩
  unfold decodeBlock
  rw [R.require_true (show b.origin < blockSize from ho), R.ok_bind, e1, R.ok_bind]
  simp only
  rw [e2, R.ok_bind]
  simp only
  rw [e3, R.ok_bind]
  simp only
  rw [e4, R.ok_bind]

/-- The block data, as what the symbols do. -/
theorem decodeBlock_symbols {data : List Byte} {b : Spec.Bzip2.Block} (ht : b.Tables) (ho : b.origin < 100000) (hw : b.Trees 19) {init : List Nat}
    (hsym : b.symbols = init ++ [(usedBytes b.used).length + 1]) (hlt : ∀ x ∈ init, x < (usedBytes b.used).length + 1)
    {st : State} (hs : Sizes st) {s : Bs} {rest : List Bool}
    (h : At data s (b.tablesBits ++ (b.trees.flatMap treeBits ++ (codedBits b.trees b.selectors 0 b.symbols ++ rest)))) :
    ∃ s', At data s' rest ∧ decodeBlock data b.origin st s =
      runSymbols ((usedBytes b.used).length + 1) b.symbols ⟨st.block, 0, 0, 0, usedBytes b.used ++ st.stack.drop (usedBytes b.used).length⟩ >>= fun x =>
        reverse x.data x.offset b.origin st.out st.offset >>= fun o =>
          .ok ({ st with block := x.data, selectors := treeBytes b.selectors ++ st.selectors.drop b.selectors.length, stack := x.stack, out := o.1, offset := o.2 }, s') := by
  have h6 := ht.trees.2
  have hu := usedBytes_length b.used
  obtain ⟨s1, h1, e1⟩ := decodeBlock_tables ht ho hs h
  obtain ⟨ts, s2, e2, i2, h2⟩ := readTrees_ok (by omega) (by omega) 0 b.trees [] s1 _ hw h1
  have hlen := ht.selectors.1
  rw [hsym] at h2 hlen
  simp only [List.length_append, List.length_cons, List.length_nil] at hlen
  have hcoded : ∀ x ∈ init ++ [(usedBytes b.used).length + 1], ∀ t ∈ b.trees, Coded t.2 x := by
    intro x hx t htr
    obtain ⟨-, c1, c2, -⟩ := hw t htr
    have hx' : x < t.2.length := by
      rw [c1]
      simp only [List.mem_append, List.mem_singleton] at hx
      rcases hx with hx | hx
      · have := hlt x hx; omega
      · omega
    unfold Coded
    have := c2 (t.2[x]) (List.getElem_mem hx')
    rw [List.getD_eq_getElem?_getD, List.getElem?_eq_getElem hx']
    exact this.1
  obtain ⟨s3, h3, e3⟩ := blockLoop_ok i2 ht.selector (by omega) (st.selectors.drop b.selectors.length) init 0 (50 * (b.selectors.length + 1))
    ⟨st.block, 0, 0, 0, usedBytes b.used ++ st.stack.drop (usedBytes b.used).length⟩ s2 rest (fun hm => by have := hlt _ hm; omega) hcoded (by omega) (by omega) h2
  refine ⟨s3, h3, ?_⟩
  have hsel0 : R.get (treeBytes b.selectors ++ st.selectors.drop b.selectors.length) 0 = .ok (BitVec.ofNat 8 (b.selectors.getD 0 0)) := by
    cases hb : b.selectors with
    | nil => rw [hb] at hlen; simp at hlen
    | cons a l => simp [R.get, treeBytes]
  have hselN : (BitVec.ofNat 8 (b.selectors.getD 0 0)).toNat = b.selectors.getD (0 / 50) 0 := by
    have : b.selectors.getD 0 0 < b.trees.length := by
      cases hb : b.selectors with
      | nil => rw [hb] at hlen; simp at hlen
      | cons a l => exact ht.selector a (by simp [hb])
    rw [BitVec.toNat_ofNat, Nat.mod_eq_of_lt (by omega)]
  rw [e1]
  simp only [Nat.add_zero, List.nil_append] at e2
  rw [e2]
  unfold readTrees
  rw [R.ok_bind]
  simp only
  unfold readBlock
  rw [R.subU_ok (by omega), R.ok_bind, hsel0, R.ok_bind, hselN, show (usedBytes b.used).length + 2 - 1 = (usedBytes b.used).length + 1 by omega, e3, hsym]
  cases runSymbols ((usedBytes b.used).length + 1) (init ++ [(usedBytes b.used).length + 1])
    ⟨st.block, 0, 0, 0, usedBytes b.used ++ st.stack.drop (usedBytes b.used).length⟩ with
  | err => rfl
  | panic => rfl
  | ok x =>
    simp only [R.ok_bind]
    cases reverse x.data x.offset b.origin st.out st.offset <;> rfl

theorem symbolsAfter_lt {k : Nat} (hk : 1 ≤ k) (ps : List Nat) : ∀ n, (∀ p ∈ ps, p < k) → ∀ x ∈ symbolsAfter n ps, x < k + 1 := by
  have hdig : ∀ n, ∀ x ∈ digits n, x < 2 := by
    intro n
    induction n using Nat.strongRecOn with
    | _ n ih =>
      intro x hx
      rw [digits] at hx
      split at hx
      · simp at hx
      · split at hx
        · rcases List.mem_cons.1 hx with rfl | hx
          · omega
          · exact ih _ (by omega) x hx
        · rcases List.mem_cons.1 hx with rfl | hx
          · omega
          · exact ih _ (by omega) x hx
  induction ps with
  | nil => intro n _ x hx; have := hdig n x hx; omega
  | cons p ps ih =>
    intro n hp x hx
    cases p with
    | zero => exact ih (n + 1) (fun q hq => hp q (by simp [hq])) x hx
    | succ p =>
      rw [symbolsAfter] at hx
      have := hp (p + 1) (by simp)
      rcases List.mem_append.1 hx with hx | hx
      · have := hdig n x hx; omega
      · rcases List.mem_cons.1 hx with rfl | hx
        · omega
        · exact ih 0 (fun q hq => hp q (by simp [hq])) x hx

theorem mtf_lt (xs : List Byte) : ∀ S : List Byte, (∀ c ∈ xs, c ∈ S) → ∀ p ∈ mtf S xs, p < S.length := by
  induction xs with
  | nil => intro S _ p hp; simp [mtf] at hp
  | cons c xs ih =>
    intro S hm p hp
    have hc := hm c (by simp)
    rw [mtf] at hp
    rcases List.mem_cons.1 hp with rfl | hp
    · exact List.idxOf_lt_length_iff.2 hc
    · have := ih (c :: S.erase c) (fun d hd => by
        by_cases hdc : d = c
        · simp [hdc]
        · exact List.mem_cons_of_mem _ ((List.mem_erase_of_ne hdc).2 (hm d (by simp [hd])))) p hp
      have h0 : 0 < S.length := List.length_pos_of_mem hc
      rw [List.length_cons, List.length_erase_of_mem hc] at this
      omega

/-- Decoding the symbols of a list of bytes. -/
theorem decodeBlock_last {data : List Byte} {b : Spec.Bzip2.Block} (ht : b.Tables) (ho : b.origin < 100000) (hw : b.Trees 19) {last : List Byte} (hne : last ≠ [])
    (hused : ∀ c ∈ last, c ∈ usedBytes b.used) (hlen : last.length ≤ 900000) (hsym : b.symbols = symbolsOf b.used last) {st : State} (hs : Sizes st) {s : Bs} {rest : List Bool}
    (h : At data s (b.tablesBits ++ (b.trees.flatMap treeBits ++ (codedBits b.trees b.selectors 0 b.symbols ++ rest)))) :
    ∃ stack s', At data s' rest ∧ stack.length = 256 ∧ decodeBlock data b.origin st s =
      if last.length ≤ blockSize then
        reverse (last ++ st.block.drop last.length) last.length b.origin st.out st.offset >>= fun o =>
          .ok ({ st with block := last ++ st.block.drop last.length, selectors := treeBytes b.selectors ++ st.selectors.drop b.selectors.length, stack := stack, out := o.1, offset := o.2 }, s')
      else .err := by
  have hu := usedBytes_length b.used
  have hS : usedBytes b.used ≠ [] := by
    cases hl : last with
    | nil => exact absurd hl hne
    | cons a l => exact List.ne_nil_of_mem (hused a (by simp [hl]))
  obtain ⟨x, hx⟩ : ∃ x, (usedBytes b.used).head? = some x := by
    cases hl : usedBytes b.used with
    | nil => exact absurd hl hS
    | cons a l => exact ⟨a, rfl⟩
  obtain ⟨s', h', e⟩ := decodeBlock_symbols (init := symbolsAfter 0 (mtf (usedBytes b.used) last)) ht ho hw hsym
    (symbolsAfter_lt (List.length_pos_iff.2 hS) _ 0 (mtf_lt last _ hused)) hs h
  obtain ⟨stack, k1, k2⟩ := runSymbols_mtf (data := st.block) hs.block (offset := 0) last (usedBytes b.used) (st.stack.drop (usedBytes b.used).length) [] 0 x hx hused (by simp) (by omega)
  simp only [overwrite_nil, List.length_nil, Nat.add_zero, Nat.zero_add, List.replicate_zero, List.append_nil, List.nil_append] at k2
  refine ⟨stack, s', h', ?_, ?_⟩
  · rw [k1, List.length_append, List.length_drop, hs.stack]; omega
  · rw [e, hsym]
    unfold symbolsOf
    rw [k2]
    by_cases hfit : last.length ≤ blockSize
    · rw [if_pos hfit, if_pos hfit, R.ok_bind]
      simp [overwrite]
    · rw [if_neg hfit, if_neg hfit]
      rfl

theorem transform_mem {block last : List Byte} {origin : Nat} (h : IsTransform block last origin) : last.length = block.length ∧ last ≠ [] ∧ ∀ c ∈ last, c ∈ block := by
  obtain ⟨rows, h1, h2, h3, h4⟩ := h
  have hl : rows.length = block.length := by rw [h1.length_eq]; simp [rotations]
  refine ⟨by rw [h3, List.length_map, hl], ?_, ?_⟩
  · intro e
    rw [h3, List.map_eq_nil_iff] at e
    rw [e] at h4
    simp at h4
  · intro c hc
    rw [h3] at hc
    obtain ⟨row, hr, rfl⟩ := List.mem_map.1 hc
    have hr' := h1.mem_iff.1 hr
    unfold rotations at hr'
    obtain ⟨i, hi, rfl⟩ := List.mem_map.1 hr'
    have hi' := List.mem_range.1 hi
    have hne : block.drop i ++ block.take i ≠ [] := by
      intro e
      have := congrArg List.length e
      simp at this
      omega
    rw [List.getLastD_eq_getLast?, List.getLast?_eq_some_getLast hne]
    have := List.getLast_mem hne
    simp only [Option.getD_some]
    rw [List.mem_append] at this
    rcases this with h | h
    · exact List.mem_of_mem_drop h
    · exact List.mem_of_mem_take h

theorem transform_origin {block last : List Byte} {origin : Nat} (h : IsTransform block last origin) : origin < block.length := by
  obtain ⟨rows, h1, -, -, h4⟩ := h
  have hl : rows.length = block.length := by rw [h1.length_eq]; simp [rotations]
  rw [← hl]
  exact (List.getElem?_eq_some_iff.1 h4).1

theorem mem_usedBytes {used : Nat → Bool} {c : Byte} (h : used c.toNat = true) : c ∈ usedBytes used := by
  unfold usedBytes
  exact List.mem_map.2 ⟨c.toNat, List.mem_filter.2 ⟨List.mem_range.2 c.isLt, h⟩, by simp⟩

/-- A block that stands for runs is decoded to their bytes. -/
theorem decodeBlock_ok {data : List Byte} {b : Spec.Bzip2.Block} (ht : b.Tables) (hw : b.Trees 19) {runs : List (Byte × Nat)} (he : b.Encodes runs)
    (hlen : (stored runs).length ≤ 100000) {st : State} (hs : Sizes st) (hout : st.offset + (expanded runs).length ≤ st.out.length) {s : Bs} {rest : List Bool}
    (h : At data s (b.tablesBits ++ (b.trees.flatMap treeBits ++ (codedBits b.trees b.selectors 0 b.symbols ++ rest)))) :
    ∃ st' s', decodeBlock data b.origin st s = .ok (st', s') ∧ At data s' rest ∧ Sizes st' ∧ st'.checksum = st.checksum ∧
      st'.out = overwrite st.out st.offset (expanded runs) ∧ st'.offset = st.offset + (expanded runs).length := by
  obtain ⟨hv, hu, last, htr, hsym⟩ := he
  obtain ⟨t1, t2, t3⟩ := transform_mem htr
  have ho : b.origin < 100000 := Nat.lt_of_lt_of_le (transform_origin htr) hlen
  obtain ⟨stack, s', h', hst, e⟩ := decodeBlock_last ht ho hw t2 (fun c hc => mem_usedBytes (hu c (t3 c hc))) (by omega) hsym hs h
  rw [if_pos (by rw [t1]; exact hlen), reverse_ok hv hlen htr _ _ _ hout, R.ok_bind] at e
  refine ⟨_, s', e, h', ⟨?_, ?_, hst⟩, rfl, rfl, rfl⟩
  · simp only [List.length_append, List.length_drop, hs.block]
    have : last.length ≤ blockSize := by rw [t1]; exact hlen
    omega
  · have := ht.selectors.2
    simp only [List.length_append, List.length_drop, hs.selectors, treeBytes, List.length_map]
    omega

/-! ## Streams -/

/-- Where bits of a header follow, the data has not ended. -/
theorem At.off_lt {data : List Byte} {s : Bs} {bs : List Bool} (h : At data s bs) (hl : 32 ≤ bs.length) : s.off < data.length := by
  have := rem_length (data := data) s
  rw [h.2] at this
  have := h.1.small
  have := h.1.off
  omega

theorem block_bits_eq (b : Spec.Bzip2.Block) (rest : List Bool) : b.bits ++ rest =
    (bits 48 0x314159265359 ++ bits 32 b.checksum ++ [false] ++ bits 24 b.origin) ++ (b.tablesBits ++ (b.trees.flatMap treeBits ++
      (codedBits b.trees b.selectors 0 b.symbols ++ rest))) := by
  unfold Spec.Bzip2.Block.bits
  simp only [List.append_assoc]

/-- The first of the blocks that follow. -/
theorem blocksLoop_block {data : List Byte} {b : Spec.Bzip2.Block} (hc : b.checksum < 2 ^ 32) (ho : b.origin < 900000) (fuel : Nat) (st : State) {s : Bs} {rest : List Bool}
    (h : At data s (b.bits ++ rest)) :
    ∃ s', At data s' (b.tablesBits ++ (b.trees.flatMap treeBits ++ (codedBits b.trees b.selectors 0 b.symbols ++ rest))) ∧
      blocksLoop data (fuel + 1) st s = decodeBlock data b.origin { st with checksum := b.checksum } s' >>= fun r => blocksLoop data fuel r.1 r.2 := by
  rw [block_bits_eq] at h
  have hoff := h.off_lt (by simp; omega)
  obtain ⟨s1, e1, h1⟩ := readHeader_block hc (Nat.lt_trans ho (by norm_num)) h
  refine ⟨s1, h1, ?_⟩
  rw [blocksLoop, if_pos hoff, e1, R.ok_bind]
  simp only
  rw [if_neg (by norm_num)]

theorem blocksLoop_end {data : List Byte} {checksum : Nat} (hc : checksum < 2 ^ 32) (fuel : Nat) (st : State) {s : Bs} {rest : List Bool} (h : At data s (endBits checksum ++ rest)) :
    blocksLoop data (fuel + 1) st s = .ok { st with checksum := checksum } := by
  have hoff := h.off_lt (by simp [endBits]; omega)
  obtain ⟨s1, e1, h1⟩ := readHeader_end hc h
  rw [blocksLoop, if_pos hoff, e1, R.ok_bind]
  simp

/-- A block that the decoder reads, with the runs it stands for. -/
structure Readable (b : Spec.Bzip2.Block) (runs : List (Byte × Nat)) : Prop where
  tables : b.Tables
  trees : b.Trees 19
  encodes : b.Encodes runs
  length : (stored runs).length ≤ 100000

theorem overwrite_append (data : List Byte) (offset : Nat) (v w : List Byte) (h : offset + v.length ≤ data.length) :
    overwrite (overwrite data offset v) (offset + v.length) w = overwrite data offset (v ++ w) := by
  unfold overwrite
  have hl : (data.take offset ++ v).length = offset + v.length := by rw [List.length_append, List.length_take]; omega
  rw [List.take_append_of_le_length (by omega), List.take_of_length_le (by omega), List.drop_append, List.drop_drop]
  rw [List.drop_eq_nil_of_le (by omega), hl, List.nil_append, List.length_append, List.append_assoc (data.take offset)]
  congr 2
  omega

theorem overwrite_length (data : List Byte) (offset : Nat) (v : List Byte) (h : offset + v.length ≤ data.length) : (overwrite data offset v).length = data.length := by
  unfold overwrite
  simp only [List.length_append, List.length_take, List.length_drop]
  omega

theorem blocksLoop_ok {data : List Byte} {checksum : Nat} (hc : checksum < 2 ^ 32) (pad : List Bool) (bs : List (Spec.Bzip2.Block × List (Byte × Nat))) :
    ∀ (fuel : Nat) (st : State) (s : Bs), (∀ b ∈ bs, Readable b.1 b.2) → bs.length < fuel → Sizes st →
      st.offset + (bs.flatMap fun b => expanded b.2).length ≤ st.out.length → At data s ((bs.map Prod.fst).flatMap Spec.Bzip2.Block.bits ++ (endBits checksum ++ pad)) →
      ∃ st', blocksLoop data fuel st s = .ok st' ∧ st'.checksum = checksum ∧ st'.out = overwrite st.out st.offset (bs.flatMap fun b => expanded b.2) ∧
        st'.offset = st.offset + (bs.flatMap fun b => expanded b.2).length := by
  induction bs with
  | nil =>
    intro fuel st s _ hf _ _ h
    obtain ⟨fuel, rfl⟩ : ∃ f, fuel = f + 1 := ⟨fuel - 1, by omega⟩
    exact ⟨_, blocksLoop_end hc fuel st (by simpa using h), rfl, by simp [overwrite_nil], by simp⟩
  | cons b bs ih =>
    intro fuel st s hr hf hs ho h
    obtain ⟨fuel, rfl⟩ : ∃ f, fuel = f + 1 := ⟨fuel - 1, by omega⟩
    simp only [List.map_cons, List.flatMap_cons, List.append_assoc] at h
    obtain ⟨r1, r2, r3, r4⟩ := hr b (by simp)
    simp only [List.flatMap_cons, List.length_append, List.length_cons] at ho hf
    obtain ⟨s1, h1, e1⟩ := blocksLoop_block r1.checksum r1.origin fuel st h
    obtain ⟨st2, s2, e2, h2, k1, k2, k3, k4⟩ := decodeBlock_ok r1 r2 r3 r4 (st := { st with checksum := b.1.checksum }) ⟨hs.block, hs.selectors, hs.stack⟩ (by simp only; omega) h1
    simp only at k3 k4
    have hl := overwrite_length st.out st.offset (expanded b.2) (by omega)
    obtain ⟨st3, e3, m1, m2, m3⟩ := ih fuel st2 s2 (fun x hx => hr x (by simp [hx])) (by omega) k1 (by rw [k3, k4, hl]; omega) h2
    refine ⟨st3, ?_, m1, ?_, ?_⟩
    · rw [e1, e2, R.ok_bind, e3]
    · rw [m2, k3, k4, overwrite_append _ _ _ _ (by omega), List.flatMap_cons]
    · rw [m3, k4, List.flatMap_cons, List.length_append]; omega

theorem checksumOf_ok (bytes : List Byte) : checksumOf bytes = .ok (crc bytes) := by
  obtain ⟨c, h, -⟩ := Props.C02_crc32_chunked 0x04c11db7#32 0#32 [bytes] []
  simp only [List.foldlM_cons, List.foldlM_nil, List.flatten_cons, List.flatten_nil, List.append_nil] at h
  unfold checksumOf crc
  cases hu : (Crc32.Ctx.new 0x04c11db7#32 0#32).update bytes with
  | err => rw [hu] at h; cases h
  | panic => rw [hu] at h; cases h
  | ok c' =>
    rw [hu] at h
    simp only [R.ok_bind, R.pure_eq, R.ok.injEq] at h ⊢
    rw [h]

/-- The start of a stream. -/
theorem decompress_start {data : List Byte} {blocks : List Spec.Bzip2.Block} {checksum : Nat} (h : IsStream data blocks checksum) (out : List Byte) :
    decompress data out = decompressBits data out ⟨0, 0, 4⟩ ∧ blocks.length + 10 ≤ data.length ∧
      ∃ pad, At data ⟨0, 0, 4⟩ (blocks.flatMap Spec.Bzip2.Block.bits ++ (endBits checksum ++ pad)) := by
  obtain ⟨⟨level, l1, l9, hh⟩, pad, hp, hb⟩ := h
  have hlen := congrArg List.length hb
  rw [byteBits_length, List.length_drop, List.length_append, List.length_append] at hlen
  have hend : (endBits checksum).length = 80 := by simp [endBits]
  have hbl : ∀ bs : List Spec.Bzip2.Block, 8 * bs.length ≤ (bs.flatMap Spec.Bzip2.Block.bits).length := by
    intro bs
    induction bs with
    | nil => simp
    | cons b bs ih =>
      rw [List.flatMap_cons, List.length_append, List.length_cons]
      have : 8 ≤ b.bits.length := by
        have := congrArg List.length (block_bits_eq b [])
        simp only [List.append_nil, List.length_append, bits_length] at this
        omega
      omega
  have := hbl blocks
  have h14 : 14 ≤ data.length := by omega
  refine ⟨?_, by omega, pad, ⟨by simp, by simp, by simp only; omega⟩, ?_⟩
  · unfold decompress readStreamHeader
    have e : data = [0x42#8, 0x5a#8, 0x68#8, BitVec.ofNat 8 (0x30 + level)] ++ data.drop 4 := by rw [← hh, List.take_append_drop]
    have hs : R.slice data 0 2 = .ok [0x42#8, 0x5a#8] := by
      rw [R.slice_ok (by omega) (by omega), e]; rfl
    have hg : R.get data 3 = .ok (BitVec.ofNat 8 (0x30 + level)) := by
      rw [e]; rfl
    have hlv : (BitVec.ofNat 8 (0x30 + level)).toNat = 0x30 + level := by rw [BitVec.toNat_ofNat]; omega
    rw [R.require_true h14, R.ok_bind, R.require_true (by omega), R.ok_bind, hs, R.ok_bind, R.require_true rfl, R.ok_bind, hg, R.ok_bind, hlv,
      R.require_true (by omega), R.ok_bind]
  · unfold rem
    simp only [bits, List.nil_append]
    rw [hb, List.append_assoc]

/-- The first state. -/
theorem sizes_start (out : List Byte) : Sizes ⟨List.replicate blockSize 0#8, List.replicate 32769 0#8, List.replicate 256 0#8, out, 0, 0⟩ :=
  ⟨List.length_replicate, List.length_replicate, List.length_replicate⟩

theorem decompress_blocks {data : List Byte} {bs : List (Spec.Bzip2.Block × List (Byte × Nat))} {checksum : Nat} (h : IsStream data (bs.map Prod.fst) checksum)
    (hc : checksum < 2 ^ 32) (hr : ∀ b ∈ bs, Readable b.1 b.2) (out : List Byte) (ho : (bs.flatMap fun b => expanded b.2).length ≤ out.length) :
    decompress data out =
      if checksum = crc (bs.flatMap fun b => expanded b.2) then
        .ok ((bs.flatMap fun b => expanded b.2) ++ out.drop (bs.flatMap fun b => expanded b.2).length, (bs.flatMap fun b => expanded b.2).length)
      else .err := by
  obtain ⟨e0, hl, pad, hat⟩ := decompress_start h out
  rw [e0]
  unfold decompressBits
  rw [List.length_map] at hl
  obtain ⟨st, e1, m1, m2, m3⟩ := blocksLoop_ok hc pad bs (data.length + 1) _ ⟨0, 0, 4⟩ hr (by omega) (sizes_start out) (by simpa using ho) hat
  simp only [Nat.zero_add] at m2 m3
  rw [e1, R.ok_bind, m1, m2, m3]
  generalize bs.flatMap (fun b => expanded b.2) = all at *
  have ho' : overwrite out 0 all = all ++ out.drop all.length := by simp [overwrite]
  rw [ho', R.slice_ok (by omega) (by simp), R.ok_bind]
  simp only [List.drop_zero, Nat.sub_zero, List.take_left', checksumOf_ok, R.ok_bind]
  by_cases hcrc : checksum = crc all
  · rw [if_pos hcrc, R.require_true hcrc]
    rfl
  · rw [if_neg hcrc, R.require_false hcrc]
    rfl

/-- A first block that is not decoded. -/
theorem decompress_first {data : List Byte} {b : Spec.Bzip2.Block} {more : List Spec.Bzip2.Block} {checksum : Nat} (h : IsStream data (b :: more) checksum)
    (hc : b.checksum < 2 ^ 32) (ho : b.origin < 900000) (out : List Byte) :
    ∃ st s rest, Sizes st ∧ At data s (b.tablesBits ++ (b.trees.flatMap treeBits ++ (codedBits b.trees b.selectors 0 b.symbols ++ rest))) ∧
      (decodeBlock data b.origin st s = .err → decompress data out = .err) ∧ (decodeBlock data b.origin st s = .panic → decompress data out = .panic) := by
  obtain ⟨e0, hl, pad, hat⟩ := decompress_start h out
  rw [List.flatMap_cons, List.append_assoc] at hat
  obtain ⟨s1, h1, e1⟩ := blocksLoop_block hc ho data.length
    ⟨List.replicate blockSize 0#8, List.replicate 32769 0#8, List.replicate 256 0#8, out, 0, 0⟩ hat
  refine ⟨⟨List.replicate blockSize 0#8, List.replicate 32769 0#8, List.replicate 256 0#8, out, 0, b.checksum⟩, s1, _, ?_, h1, fun he => ?_, fun he => ?_⟩
  · exact ⟨(sizes_start out).block, (sizes_start out).selectors, (sizes_start out).stack⟩
  · rw [e0]
    unfold decompressBits
    rw [e1, he]
    rfl
  · rw [e0]
    unfold decompressBits
    rw [e1, he]
    rfl

end Keramics.Bzip2
