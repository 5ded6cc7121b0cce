import Verif.Lemmas.Bzip2Exists

/-!
# C54: bzip2 decompression

The property: the decompressed data of a bzip2 stream is what was compressed, and no data makes the decoder panic. Four kinds of streams that the format
allows are rejected, and data makes it panic: what is proved is the round trip of one block, what happens to blocks in general, and the deviations.
-/

namespace Keramics.Props
open Keramics.Spec.Bzip2 Keramics.Spec.Bwt

/-- Any stream of blocks of at most 100000 stored bytes, with code lengths of at most 19: the bytes of all blocks come out, and the other bytes of the buffer are
as they were, if the checksum of the stream is the CRC-32 of all the bytes. Otherwise it is an error. -/
theorem C54_blocks_partial (data : List Byte) (blocks : List (Block × List (Byte × Nat))) (checksum : Nat) (h : IsStream data (blocks.map Prod.fst) checksum)
    (hc : checksum < 2 ^ 32) (ht : ∀ b ∈ blocks, b.1.Tables ∧ b.1.Trees 19) (he : ∀ b ∈ blocks, b.1.Encodes b.2)
    (hl : ∀ b ∈ blocks, (stored b.2).length ≤ 100000) (out : List Byte) (ho : (blocks.flatMap fun b => expanded b.2).length ≤ out.length) :
    Bzip2.decompress data out =
      if checksum = crc (blocks.flatMap fun b => expanded b.2) then
        .ok ((blocks.flatMap fun b => expanded b.2) ++ out.drop (blocks.flatMap fun b => expanded b.2).length, (blocks.flatMap fun b => expanded b.2).length)
      else .err :=
  Bzip2.decompress_blocks h hc (fun b hb => ⟨(ht b hb).1, (ht b hb).2, he b hb, hl b hb⟩) out ho

/-- A stream of one block, with the checksum that the format gives it: the bytes come out. -/
theorem C54_one_block_partial (data : List Byte) (block : Block) (runs : List (Byte × Nat)) (h : IsStream data [block] (combine [crc (expanded runs)]))
    (ht : block.Tables) (hw : block.Trees 19) (he : block.Encodes runs) (hl : (stored runs).length ≤ 100000) (out : List Byte) (ho : (expanded runs).length ≤ out.length) :
    Bzip2.decompress data out = .ok (expanded runs ++ out.drop (expanded runs).length, (expanded runs).length) := by
  have e : combine [crc (expanded runs)] = crc (expanded runs) := by simp [combine]
  rw [e] at h
  have := C54_blocks_partial data [(block, runs)] (crc (expanded runs)) h (BitVec.isLt _) (by simp [ht, hw]) (by simp [he]) (by simp [hl]) out (by simpa using ho)
  simpa using this

/-- Any data that is not empty and whose runs are stored in at most 100000 bytes has such a stream, at every level: from that it is restored. -/
theorem C54_every_data_partial (level : Nat) (h1 : 1 ≤ level) (h9 : level ≤ 9) (runs : List (Byte × Nat)) (hv : ValidRuns runs) (hne : runs ≠ [])
    (hl : (stored runs).length ≤ 100000) :
    ∃ data block, IsStream data [block] (combine [crc (expanded runs)]) ∧ data[3]? = some (BitVec.ofNat 8 (0x30 + level)) ∧ block.Tables ∧ block.Trees 19 ∧
      block.Encodes runs ∧ block.checksum = crc (expanded runs) ∧
      ∀ out : List Byte, (expanded runs).length ≤ out.length →
        Bzip2.decompress data out = .ok (expanded runs ++ out.drop (expanded runs).length, (expanded runs).length) := by
  obtain ⟨b, k1, k2, k3, k4⟩ := Bzip2.exists_readable runs hv hne (by omega) (crc (expanded runs)) (BitVec.isLt _)
  obtain ⟨data, m1, m2⟩ := Bzip2.exists_stream level h1 h9 [b] (combine [crc (expanded runs)])
  exact ⟨data, b, m1, m2, k1, k4, k2, k3, fun out ho => C54_one_block_partial data b runs m1 k1 k4 k2 hl out ho⟩

/-- Data that does not start with `BZ` or that has a level other than `1` to `9` is refused. What is missing: the byte between these is not looked at. -/
theorem C54_header_partial (data out : List Byte) (h : data.take 2 ≠ [0x42#8, 0x5a#8] ∨ ∀ level : Nat, 1 ≤ level → level ≤ 9 → data[3]? ≠ some (BitVec.ofNat 8 (0x30 + level))) :
    Bzip2.decompress data out = .err := by
  unfold Bzip2.decompress
  by_cases hl : 14 ≤ data.length
  · rw [R.require_true hl, R.ok_bind]
    have : Bzip2.readStreamHeader data = .err := by
      unfold Bzip2.readStreamHeader
      rw [R.require_true (by omega), R.ok_bind, R.slice_ok (by omega) (by omega), R.ok_bind]
      rcases h with h | h
      · rw [R.require_false (by simpa using h), R.err_bind]
      · by_cases hs : List.take (2 - 0) (List.drop 0 data) = [0x42#8, 0x5a#8]
        · rw [R.require_true hs, R.ok_bind]
          have hg : data[3]? = some data[3] := List.getElem?_eq_getElem (by omega)
          rw [R.get_ok (by omega), R.ok_bind]
          apply R.require_false
          rintro ⟨k1, k2⟩
          refine h (data[3].toNat - 0x30) (by omega) (by omega) ?_
          rw [hg, show 0x30 + (data[3].toNat - 0x30) = data[3].toNat by omega, BitVec.ofNat_toNat, BitVec.setWidth_eq]
        · rw [R.require_false hs, R.err_bind]
    rw [this, R.err_bind]
  · rw [R.require_false hl, R.err_bind]

/-- Level 0. -/
example (rest out : List Byte) : Bzip2.decompress ([0x42#8, 0x5a#8, 0x68#8, 0x30#8] ++ rest) out = .err :=
  C54_header_partial _ _ (.inr fun level h1 h9 e => by
    have : (0x30#8 : Byte) = BitVec.ofNat 8 (0x30 + level) := Option.some.inj e
    have := congrArg BitVec.toNat this
    simp only [BitVec.toNat_ofNat] at this
    omega)

/-- A stream without blocks, of no bytes, gives no bytes. -/
theorem C54_no_block (data out : List Byte) (h : IsStream data [] (combine [])) : Bzip2.decompress data out = .ok (out, 0) := by
  have := C54_blocks_partial data [] 0 h (by norm_num) (by simp) (by simp) (by simp) out (by simp)
  rw [this, if_pos (by decide +kernel)]
  simp

/-- The checksum of a stream of two or more blocks is not the CRC-32 of the bytes: a stream of the blocks `a` and `b`, as the format has it, is rejected. -/
theorem C54_violated_blocks : ∃ (data : List Byte) (blocks : List (Block × List (Byte × Nat))), IsStream data (blocks.map Prod.fst) (combine (blocks.map fun b => crc (expanded b.2))) ∧
    (∀ b ∈ blocks, b.1.Tables ∧ b.1.Trees 19 ∧ b.1.Encodes b.2 ∧ b.1.checksum = crc (expanded b.2)) ∧
    (blocks.flatMap fun b => expanded b.2) = [0x61#8, 0x62#8] ∧
    ∀ out : List Byte, 2 ≤ out.length → Bzip2.decompress data out = .err := by
  obtain ⟨a, a1, a2, a3, a4⟩ := Bzip2.exists_readable [(0x61#8, 1)] (by simp [ValidRuns]) (by simp) (by decide) (crc (expanded [(0x61#8, 1)])) (BitVec.isLt _)
  obtain ⟨b, b1, b2, b3, b4⟩ := Bzip2.exists_readable [(0x62#8, 1)] (by simp [ValidRuns]) (by simp) (by decide) (crc (expanded [(0x62#8, 1)])) (BitVec.isLt _)
  obtain ⟨data, m1, -⟩ := Bzip2.exists_stream 1 (by omega) (by omega) [a, b] (combine [crc (expanded [(0x61#8, 1)]), crc (expanded [(0x62#8, 1)])])
  refine ⟨data, [(a, [(0x61#8, 1)]), (b, [(0x62#8, 1)])], m1, ?_, by simp [expanded], ?_⟩
  · intro x hx
    simp only [List.mem_cons, List.not_mem_nil, or_false] at hx
    rcases hx with rfl | rfl
    · exact ⟨a1, a4, a2, a3⟩
    · exact ⟨b1, b4, b2, b3⟩
  · intro out ho
    rw [C54_blocks_partial data [(a, [(0x61#8, 1)]), (b, [(0x62#8, 1)])] _ m1 (by decide +kernel) (by simp [a1, a4, b1, b4]) (by simp [a2, b2])
      (by simp [stored, storedRun]) out (by simpa [expanded] using ho), if_neg]
    simp only [List.flatMap_cons, List.flatMap_nil]
    decide +kernel

/-- Blocks of more than 100000 bytes, that levels from 2 have: a stream is rejected if its first block is one of these. -/
theorem C54_violated_level (data : List Byte) (block : Block) (more : List Block) (checksum : Nat) (runs : List (Byte × Nat)) (h : IsStream data (block :: more) checksum)
    (ht : block.Tables) (hw : block.Trees 19) (he : block.Encodes runs) (h1 : 100000 < (stored runs).length) (h9 : (stored runs).length ≤ 900000) (out : List Byte) :
    Bzip2.decompress data out = .err := by
  obtain ⟨st, s, rest, k1, k2, k3, -⟩ := Bzip2.decompress_first h ht.checksum ht.origin out
  exact k3 (Bzip2.decodeBlock_long ht hw he h1 h9 k1 k2)

/-- There are such streams: of every data whose runs are stored in more than 100000 bytes. -/
theorem C54_level_exists (runs : List (Byte × Nat)) (hv : ValidRuns runs) (h1 : 100000 < (stored runs).length) (h9 : (stored runs).length ≤ 900000) :
    ∃ data block, IsStream data [block] (combine [crc (expanded runs)]) ∧ data[3]? = some 0x39#8 ∧ block.Tables ∧ block.Trees 19 ∧ block.Encodes runs ∧
      ∀ out, Bzip2.decompress data out = .err := by
  have hne : runs ≠ [] := by rintro rfl; simp [stored] at h1
  obtain ⟨b, k1, k2, k3, k4⟩ := Bzip2.exists_readable runs hv hne h9 (crc (expanded runs)) (BitVec.isLt _)
  obtain ⟨data, m1, m2⟩ := Bzip2.exists_stream 9 (by omega) (by omega) [b] (combine [crc (expanded runs)])
  exact ⟨data, b, m1, m2, k1, k4, k2, C54_violated_level data b [] _ runs m1 k1 k4 k2 h1 h9⟩

/-- Codes of 20 bits, that the format allows: a stream is rejected if the first tree of its first block has one of these. -/
theorem C54_violated_code_length (data : List Byte) (block : Block) (more : List Block) (checksum : Nat) (h : IsStream data (block :: more) checksum)
    (ht : block.Tables) (hw : block.Trees 20) (start : Nat) (lens : List Nat) (trees : List (Nat × List Nat)) (hb : block.trees = (start, lens) :: trees)
    (hs : start ≤ 19) (h20 : 20 ∈ lens) (out : List Byte) : Bzip2.decompress data out = .err := by
  obtain ⟨st, s, rest, k1, k2, k3, -⟩ := Bzip2.decompress_first h ht.checksum ht.origin out
  by_cases ho : block.origin < 100000
  · obtain ⟨s1, m1, m2, -⟩ := Bzip2.decodeBlock_tree ht ho k1 hb k2
    obtain ⟨-, w1, w2, -⟩ := hw (start, lens) (by simp [hb])
    have := Bzip2.usedBytes_length block.used
    exact k3 (m2 (Bzip2.readTree_err (by omega) hs w1 (fun l hl => (w2 l hl).2) h20 m1))
  · refine k3 ?_
    unfold Bzip2.decodeBlock
    rw [R.require_false (show ¬ block.origin < Bzip2.blockSize from ho)]
    rfl

/-- There are such streams: of the bytes from 1 to 19, with code lengths 1, 2, …, 19, 20 and 20. -/
theorem C54_code_length_exists : ∃ data block runs lens, IsStream data [block] (combine [crc (expanded runs)]) ∧ block.Tables ∧ block.Trees 20 ∧ block.Encodes runs ∧
    block.checksum = crc (expanded runs) ∧ block.trees = [(1, lens), (1, lens)] ∧ expanded runs = (List.range 19).map (fun i => BitVec.ofNat 8 (i + 1)) ∧
    ∀ out, Bzip2.decompress data out = .err := by
  let runs : List (Byte × Nat) := (List.range 19).map fun i => (BitVec.ofNat 8 (i + 1), 1)
  let lens : List Nat := (List.range 20).map (· + 1) ++ [20]
  have hs : stored runs = (List.range 19).map (fun i => BitVec.ofNat 8 (i + 1)) := by decide +kernel
  obtain ⟨b, k1, k2, k3, k4, k5⟩ := Bzip2.exists_block runs (by simp [runs, List.range, List.range.loop, ValidRuns]) (by decide) (by rw [hs]; simp) (crc (expanded runs)) (BitVec.isLt _)
    [(1, lens), (1, lens)] (by simp)
  obtain ⟨data, m1, -⟩ := Bzip2.exists_stream 1 (by omega) (by omega) [b] (combine [crc (expanded runs)])
  have hu : (usedBytes b.used).length = 19 := by rw [k5, hs]; decide +kernel
  have hw : b.Trees 20 := by
    intro t ht
    rw [k4] at ht
    simp only [List.mem_cons, List.not_mem_nil, or_false, or_self] at ht
    rw [ht, hu]
    exact ⟨by simp, by decide +kernel, by decide +kernel, by decide +kernel⟩
  exact ⟨data, b, runs, lens, m1, k1, hw, k2, k3, k4, by decide +kernel, C54_violated_code_length data b [] _ m1 k1 hw 1 lens [(1, lens)] k4 (by omega) (by decide +kernel)⟩

/-- Code lengths that are not those of a prefix code are not rejected, but make it panic. -/
theorem C54_violated_over_subscribed (data : List Byte) (block : Block) (more : List Block) (checksum : Nat) (h : IsStream data (block :: more) checksum)
    (ht : block.Tables) (ho : block.origin < 100000) (start : Nat) (lens : List Nat) (trees : List (Nat × List Nat)) (hb : block.trees = (start, lens) :: trees)
    (hs : start ≤ 19) (hn : lens.length = (usedBytes block.used).length + 2) (h19 : ∀ l ∈ lens, l ≤ 19)
    (hk : 2 ^ 19 < (lens.map fun l => 2 ^ (19 - l)).sum) (out : List Byte) : Bzip2.decompress data out = .panic := by
  obtain ⟨st, s, rest, k1, k2, -, k3⟩ := Bzip2.decompress_first h ht.checksum ht.origin out
  obtain ⟨s1, m1, -, m2⟩ := Bzip2.decodeBlock_tree ht ho k1 hb k2
  have := Bzip2.usedBytes_length block.used
  exact k3 (m2 (Bzip2.readTree_panic (by omega) hs hn h19 hk m1))

/-- A run length of more than 63 digits is not rejected, but makes it panic. -/
theorem C54_violated_run_length (data : List Byte) (block : Block) (more : List Block) (checksum : Nat) (h : IsStream data (block :: more) checksum)
    (ht : block.Tables) (ho : block.origin < 100000) (hw : block.Trees 19) (digits rest : List Nat)
    (hsym : block.symbols = digits ++ rest ++ [(usedBytes block.used).length + 1]) (hd : ∀ d ∈ digits, d ≤ 1) (hn : digits.length = 64)
    (hlt : ∀ x ∈ rest, x < (usedBytes block.used).length + 1) (hu : 1 ≤ (usedBytes block.used).length) (out : List Byte) : Bzip2.decompress data out = .panic := by
  obtain ⟨st, s, rem, k1, k2, -, k3⟩ := Bzip2.decompress_first h ht.checksum ht.origin out
  obtain ⟨s1, m1, e⟩ := Bzip2.decodeBlock_symbols ht ho hw hsym (by
    intro x hx
    rcases List.mem_append.1 hx with hx | hx
    · have := hd x hx; omega
    · exact hlt x hx) k1 k2
  apply k3
  rw [e, hsym]
  have key : ∀ b : Bzip2.Block, b.runs = 0 → Bzip2.runSymbols ((usedBytes block.used).length + 1) (digits ++ rest ++ [(usedBytes block.used).length + 1]) b = .panic := by
    intro b hb
    cases rest with
    | nil =>
      rw [List.append_nil]
      exact Bzip2.runSymbols_many (by omega) digits b hd (by omega)
    | cons x rest =>
      rw [List.append_assoc, List.cons_append]
      exact Bzip2.runSymbols_many (by omega) digits b hd (by omega)
  rw [key _ rfl]
  rfl

/-- The runs of `aaaaaab`, that are stored as `aaaa`, 2 and `b`: they meet the conditions of `C54_every_data_partial`. -/
example : ValidRuns [(0x61#8, 6), (0x62#8, 1)] ∧ (stored [(0x61#8, 6), (0x62#8, 1)]).length = 6 ∧ (expanded [(0x61#8, 6), (0x62#8, 1)]).length = 7 :=
  ⟨by simp [ValidRuns], by decide, by decide⟩

/-- 25000 runs of 4 bytes and one of 1: 125001 stored bytes, that meet the conditions of `C54_level_exists`. -/
example : let runs := List.replicate 25000 (0#8, 4) ++ [(0#8, 1)]; ValidRuns runs ∧ (stored runs).length = 125001 := by
  have hv : ∀ n, ValidRuns (List.replicate n (0#8, 4) ++ [(0#8, 1)]) := by
    intro n
    induction n with
    | zero => simp [ValidRuns]
    | succ n ih => rw [List.replicate_succ, List.cons_append]; exact ⟨by omega, by omega, by omega, ih⟩
  have hl : ∀ n, (stored (List.replicate n (0#8, 4) ++ [(0#8, 1)])).length = 5 * n + 1 := by
    intro n
    induction n with
    | zero => rfl
    | succ n ih =>
      rw [List.replicate_succ, List.cons_append]
      unfold stored at *
      rw [List.flatMap_cons, List.length_append, ih]
      simp [storedRun]
      omega
  exact ⟨hv 25000, hl 25000⟩

/-- The byte `a` in a block with three codes of 1 bit: it meets the conditions of `C54_violated_over_subscribed`. -/
example : ∃ data block, IsStream data [block] 0 ∧ block.Tables ∧ block.origin < 100000 ∧ block.trees = [(1, [1, 1, 1]), (1, [1, 1, 1])] ∧
    [1, 1, 1].length = (usedBytes block.used).length + 2 ∧ 2 ^ 19 < ([1, 1, 1].map fun l => 2 ^ (19 - l)).sum := by
  obtain ⟨b, k1, k2, k3, k4, k5⟩ := Bzip2.exists_block [(0x61#8, 1)] (by simp [ValidRuns]) (by simp) (by decide) 0 (by norm_num) [(1, [1, 1, 1]), (1, [1, 1, 1])] (by simp)
  obtain ⟨data, m1, -⟩ := Bzip2.exists_stream 1 (by omega) (by omega) [b] 0
  obtain ⟨-, -, last, htr, -⟩ := k2
  have := Bzip2.transform_origin htr
  exact ⟨data, b, m1, k1, Nat.lt_trans this (by decide), k4, by rw [k5]; decide +kernel, by decide⟩

/-- 64 digits and the end of the block: it meets the conditions of `C54_violated_run_length`. -/
example : let block : Block := ⟨0, 0, fun n => n == 0x61, [(1, [1, 2, 2]), (1, [1, 2, 2])], [0, 1], List.replicate 64 1 ++ [2]⟩
    block.Tables ∧ block.Trees 19 ∧ block.symbols = List.replicate 64 1 ++ [] ++ [(usedBytes block.used).length + 1] := by
  intro block
  have hu : (usedBytes block.used).length = 1 := by decide +kernel
  refine ⟨⟨by decide, by decide, by decide, by decide, by decide⟩, ?_, by rw [hu]; decide⟩
  intro t ht
  simp only [block, List.mem_cons, List.not_mem_nil, or_false, or_self] at ht
  rw [ht, hu]
  exact ⟨by simp, by decide, by decide, by decide⟩

end Keramics.Props
