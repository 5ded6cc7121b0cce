import Verif.Lemmas.Fat

/-!
Property theorems: file allocation table and FAT streams (C30, C31).
-/

namespace Keramics.Props
open Keramics Keramics.Spec

/-! ## C30 -/

/-- The width of the entries of a format of the code is the one of its name. -/
example : Fat.width .fat12 = .w12 ∧ Fat.width .fat16 = .w16 ∧ Fat.width .fat32 = .w32 := by decide

/-- C30: entry `i` of a table of any width is read as the bits stored for cluster `i`, whatever the
table contains. -/
theorem C30_stored (t : Fat.Table) (U : List Byte) (i : Nat) (hi : i < t.entries)
    (hU : t.offset + (Fat.width t.format).bits * (i + 1) / 8 + 2 ≤ U.length) (h64 : U.length < 2 ^ 64) :
    Fat.readEntry t U i = .ok (Fat.stored (Fat.width t.format) (U.drop t.offset) i) :=
  Fat.readEntry_ok hi (Fat.room hU) h64

/-- C30 for 12-bit and 16-bit tables, and for 32-bit tables whose reserved bits are zero. Missing:
32-bit entries with reserved bits set, see `C30_violated`. -/
theorem C30_entry_partial (t : Fat.Table) (U : List Byte) (i : Nat) (hi : i < t.entries)
    (hU : t.offset + (Fat.width t.format).bits * (i + 1) / 8 + 2 ≤ U.length) (h64 : U.length < 2 ^ 64)
    (hres : t.format = .fat32 → Fat.stored .w32 (U.drop t.offset) i < 2 ^ 28) :
    Fat.readEntry t U i = .ok (Fat.entry (Fat.width t.format) (U.drop t.offset) i) := by
  rw [Fat.readEntry_ok hi (Fat.room hU) h64]
  unfold Fat.entry
  cases hf : t.format with
  | fat12 => rfl
  | fat16 => rfl
  | fat32 =>
    show _ = R.ok (Fat.stored .w32 (U.drop t.offset) i % 2 ^ 28)
    rw [Nat.mod_eq_of_lt (hres hf)]
    rfl

/-- C30: reading at or beyond the number of entries is an error. -/
theorem C30_bounds (t : Fat.Table) (U : List Byte) (i : Nat) (hi : t.entries ≤ i) : Fat.readEntry t U i = .err := by
  unfold Fat.readEntry
  simp [R.require, show ¬i < t.entries by omega]

/-- C30: an entry that is not in the data is an error. -/
theorem C30_data (t : Fat.Table) (U : List Byte) (i : Nat) (hoff : t.offset < 2 ^ 63) (hn : t.entries ≤ 2 ^ 32)
    (hU : U.length < t.offset + ((Fat.width t.format).bits * (i + 1) + 7) / 8) : Fat.readEntry t U i = .err := by
  have hU := Fat.no_room hU
  by_cases hi : i < t.entries
  · unfold Fat.readEntry
    have := Fat.entryOffset_le t.format i
    rw [R.require_true hi, R.ok_bind, R.addU_ok (by omega), R.ok_bind]
    have : readExactAt U (t.offset + Fat.entryOffset t.format i) (Fat.entrySize t.format) = .err := by
      unfold readExactAt
      have hs : 0 < Fat.entrySize t.format := by unfold Fat.entrySize; split <;> omega
      simp only [List.length_take, List.length_drop]
      rw [if_neg (by omega)]
    rw [this]; rfl
  · exact C30_bounds t U i (by omega)

/-- C30 is false of the code: the reserved bits of a 32-bit entry are returned as part of the cluster
number, here for entry 2 with the value 3 and reserved bits 1. -/
theorem C30_violated : ∃ (t : Fat.Table) (U : List Byte) (i v : Nat), i < t.entries ∧
    U.length = t.entries * 4 ∧ Fat.readEntry t U i = .ok v ∧ v ≠ Fat.entry .w32 U i :=
  ⟨⟨.fat32, 0, 3, 0, 512⟩, [0#8, 0#8, 0#8, 0#8, 0#8, 0#8, 0#8, 0#8, 3#8, 0#8, 0#8, 0x10#8], 2, 0x10000003,
    by decide, by decide, by decide +kernel, by decide +kernel⟩

/-- The tables of the theorems exist: the pairs `123` `456` and `fff` `003` of a 12-bit table. -/
example : (List.range 4).map (fun i => Fat.readEntry ⟨.fat12, 1, 4, 0, 512⟩
    [0#8, 0x23#8, 0x61#8, 0x45#8, 0xff#8, 0x3f#8, 0x00#8] i) = [.ok 0x123, .ok 0x456, .ok 0xfff, .ok 0x003] ∧
    (List.range 4).map (Fat.entry .w12 [0x23#8, 0x61#8, 0x45#8, 0xff#8, 0x3f#8, 0x00#8])
      = [0x123, 0x456, 0xfff, 0x003] := by decide +kernel

/-! ## C31 -/

/-- C31: a file of any size whose chain has as many clusters as the size asks for opens, and under
every sequence of reads and seeks its stream behaves as the concatenation of the clusters of the
chain truncated to the size. Missing: chains with cluster numbers from 0xff0 (12-bit), 0xfff0 (16-bit) or
0x0ffffff0 (32-bit) on, with reserved bits set, or longer than the size asks for; see `C31_violated` and
`C31_violated_long`. -/
theorem C31_contents_partial (t : Fat.Table) (U : List Byte) (size c : Nat) (chain : List Nat)
    (ht : Fat.Typed t t.clusterSize) (hU : U.length < 2 ^ 64)
    (hchain : Fat.Chain (Fat.width t.format) (U.drop t.offset) c chain)
    (htab : ∀ x ∈ chain, x < t.entries ∧ t.offset + (Fat.width t.format).bits * (x + 1) / 8 + 2 ≤ U.length)
    (hres : ∀ x ∈ chain, t.format = .fat32 → Fat.stored .w32 (U.drop t.offset) x < 2 ^ 28)
    (hlim : ∀ x ∈ chain, x < match t.format with | .fat12 => 0xff0 | .fat16 => 0xfff0 | .fat32 => 0x0ffffff0)
    (hdata : ∀ x ∈ chain, t.firstCluster + (x - 2) * t.clusterSize + t.clusterSize ≤ U.length)
    (hlen : chain.length = (size + t.clusterSize - 1) / t.clusterSize) (hsize : size < 2 ^ 32)
    (ops : List StreamOp) (hf : size + seekBudget ops < 2 ^ 63) :
    ∃ tree tr, Fat.openTree t U t.clusterSize size c = .ok tree ∧
      Stream.run (Fat.stream U tree size) ⟨(), 0⟩ ops = .ok tr ∧ tr.map Prod.fst = ops ∧
      Trace true (Fat.contents U t.firstCluster t.clusterSize chain size) size 0 tr := by
  have hbs := ht.bs_pos
  have hbl := ht.bs_lt
  have hread : ∀ x ∈ chain, Fat.Readable t U x := by
    intro x hx
    refine ⟨(htab x hx).1, Fat.room (htab x hx).2, ?_, hlim x hx⟩
    unfold Fat.entry
    have := hres x hx
    cases hf : t.format with
    | fat12 => rfl
    | fat16 => rfl
    | fat32 => exact (Nat.mod_eq_of_lt (this hf)).symm
  generalize hB : t.clusterSize = bs at *
  have hlb : size ≤ chain.length * bs ∧ chain.length * bs < size + bs := by
    have h1 := Nat.div_add_mod (size + bs - 1) bs
    have h2 := Nat.mod_lt (size + bs - 1) hbs
    rw [hlen, Nat.mul_comm]
    omega
  have hchlen : chain.length ≤ t.entries := by
    have h1 : chain ⊆ List.range t.entries := fun x hx => List.mem_range.2 (hread x hx).entry
    have := (List.subperm_of_subset (Fat.chain_nodup (Fat.width_facts t.format) hchain) h1).length_le
    rwa [List.length_range] at this
  obtain ⟨tree, e1, e2, e3⟩ := Fat.openLoop_ok ht hU hread hchain (t.entries + 1) (visited := []) (logical := 0)
    (BlockTree.new_holds (chain.length * bs) 0 bs hbs) rfl rfl (by show chain.length * bs < _; omega) (Nat.dvd_zero _)
    (by simp [BlockTree.new]) (by simp) (by simp) (by omega)
  rw [List.nil_append] at e2
  have e3 : tree.dataSize = chain.length * bs := e3
  have hopen : Fat.openTree t U bs size c = .ok tree := by
    unfold Fat.openTree
    have hdc : BlockTree.divCeil size bs = chain.length := hlen.symm
    rw [R.check_true (by omega), R.ok_bind, hdc, R.mulU_ok (by omega), R.ok_bind, e1]
  have hcl : ∀ x ∈ chain, (Fat.cluster U t.firstCluster bs x).length = bs := by
    intro x hx
    have := hdata x hx
    unfold Fat.cluster
    rw [List.length_take, List.length_drop]; omega
  have hC : (Fat.contents U t.firstCluster bs chain size).length = size := by
    unfold Fat.contents
    rw [List.length_take, flatMap_uniform_length hcl]; omega
  have hpiece : ∀ pos n, 0 < n → pos + n ≤ size → ∃ x, chain[pos / bs]? = some x ∧ x ∈ chain ∧
      Fat.piece U tree () pos n = .ok (Blocks.readAt U (t.firstCluster + (x - 2) * bs + pos % bs)
        (min n (bs - pos % bs)), ()) := by
    intro pos n hn hp
    have hi : pos / bs < chain.length := by rw [Nat.div_lt_iff_lt_mul hbs]; omega
    refine ⟨chain[pos / bs], List.getElem?_eq_getElem hi, List.getElem_mem _, ?_⟩
    rw [Fat.piece_eq ht e2 (fun y hy => (hread y hy).number) (List.getElem?_eq_getElem hi) (by omega), hB]
  obtain ⟨tr, r1, r2, r3⟩ := Blocks.blocks_correct (piece := Fat.piece U tree) (Inv := fun _ => True)
    (C := Fat.contents U t.firstCluster bs chain size)
    (by
      intro s pos n out s' _ hn hp h
      rw [hC] at hp
      obtain ⟨x, hx, hxm, he⟩ := hpiece pos n hn hp
      rw [he] at h
      have heq : Blocks.readAt U (t.firstCluster + (x - 2) * bs + pos % bs) (min n (bs - pos % bs)) = out := by
        simpa using h
      have hlt := Nat.mod_lt pos hbs
      have hd := hdata x hxm
      have hol : out.length = min n (bs - pos % bs) := by
        rw [← heq]; unfold Blocks.readAt; rw [List.length_take, List.length_drop]; omega
      refine ⟨trivial, fun h0 => ?_, Blocks.prefix_of_bytes (by omega) (by omega) fun i hi => ?_⟩
      · rw [h0] at hol; simp at hol; omega
      · have hdm := Nat.div_add_mod pos bs
        rw [Nat.mul_comm] at hdm
        unfold Fat.contents
        rw [List.getElem?_take_of_lt (by omega), show pos + i = pos / bs * bs + (pos % bs + i) by omega,
          flatMap_uniform hcl (by omega), hx, ← heq]
        unfold Blocks.readAt Fat.cluster
        show _ = (List.take bs _)[pos % bs + i]?
        rw [List.getElem?_take_of_lt (by omega), List.getElem?_take_of_lt (by omega), List.getElem?_drop,
          List.getElem?_drop, Nat.add_assoc])
    (by
      intro s pos n _ hn hp
      rw [hC] at hp
      obtain ⟨x, _, _, he⟩ := hpiece pos n hn hp
      exact ⟨_, _, he⟩)
    ops (by omega) () trivial
  rw [hC] at r1 r3
  exact ⟨tree, tr, hopen, r1, r2, r3⟩

/-- C31: opening any file on any volume comes to an end, and with a normal return or an error. -/
theorem C31_open_total (t : Fat.Table) (U : List Byte) (bs size c : Nat) (ht : Fat.Typed t bs) (hsize : size < 2 ^ 32) :
    Fat.openTree t U bs size c ≠ .panic := by
  have hbs := ht.bs_pos
  have hbl := ht.bs_lt
  have h1 : BlockTree.divCeil size bs * bs < 2 ^ 33 := by
    have := Nat.div_mul_le_self (size + bs - 1) bs
    unfold BlockTree.divCeil; omega
  unfold Fat.openTree
  rw [R.check_true (by omega), R.ok_bind, R.mulU_ok (by omega), R.ok_bind]
  exact (Fat.openLoop_sat ht (t.entries + 1) (visited := []) (logical := 0)
    (BlockTree.new_holds _ 0 bs hbs) rfl rfl (by show BlockTree.divCeil size bs * bs < _; omega) (Nat.dvd_zero _)
    (by omega) (by simp) List.nodup_nil (by simp) (by simp)).ne_panic

/-- C31: a chain that never ends, because it is cyclic, is rejected. -/
theorem C31_cyclic (t : Fat.Table) (U : List Byte) (bs size c : Nat) (ht : Fat.Typed t bs) (hsize : size < 2 ^ 32)
    (hcyc : ∀ k, 2 ≤ Nat.iterate (Fat.stored (Fat.width t.format) (U.drop t.offset)) k c ∧
      Nat.iterate (Fat.stored (Fat.width t.format) (U.drop t.offset)) k c <
        match t.format with | .fat12 => 0xff0 | .fat16 => 0xfff0 | .fat32 => 0x0ffffff0) :
    Fat.openTree t U bs size c = .err := by
  have hbs := ht.bs_pos
  have hbl := ht.bs_lt
  have h1 : BlockTree.divCeil size bs * bs < 2 ^ 33 := by
    have := Nat.div_mul_le_self (size + bs - 1) bs
    unfold BlockTree.divCeil; omega
  have hsat := Fat.openLoop_sat (U := U) (c := c) ht (t.entries + 1) (visited := []) (logical := 0)
    (BlockTree.new_holds (BlockTree.divCeil size bs * bs) 0 bs hbs) rfl rfl
    (by show BlockTree.divCeil size bs * bs < _; omega) (Nat.dvd_zero _)
    (by omega) (by simp) List.nodup_nil (by simp) (by simp)
  unfold Fat.openTree
  rw [R.check_true (by omega), R.ok_bind, R.mulU_ok (by omega), R.ok_bind]
  cases h : Fat.openLoop t U bs (t.entries + 1) c [] 0 (BlockTree.new (BlockTree.divCeil size bs * bs) 0 bs) with
  | err => rfl
  | panic => exact absurd h hsat.ne_panic
  | ok tree =>
    obtain ⟨chain, -, -, -, -, k, -, hk⟩ := hsat.of_ok h
    exact absurd (hcyc k) hk

/-- C31 is false of the code: cluster 0xff0 of a 12-bit table is a valid cluster number, but the code takes it
for the end of the chain. A file of one byte in that cluster opens and cannot be read. -/
theorem C31_violated : ∃ (t : Fat.Table) (U : List Byte) (tree : _),
    Fat.Chain (Fat.width t.format) (U.drop t.offset) 0xff0 [0xff0] ∧ 0xff0 < t.entries ∧
    t.firstCluster + (0xff0 - 2) * t.clusterSize + t.clusterSize ≤ U.length ∧
    Fat.openTree t U t.clusterSize 1 0xff0 = .ok tree ∧
    Stream.run (Fat.stream U tree 1) ⟨(), 0⟩ [.read 1] = .err := by
  have hl : (List.replicate 20000 0xff#8).length = 20000 := by rw [List.length_replicate]
  generalize hU : List.replicate 20000 0xff#8 = U at hl
  have hs : Fat.stored .w12 U 0xff0 = 0xfff := by
    have h := Fat.entryValue_eq .fat12 0xff0 U (by show 0xff0 / 2 * 3 + 3 ≤ _; omega)
    have h2 : (U.drop (Fat.entryOffset .fat12 0xff0)).take (Fat.entrySize .fat12) = [0xff#8, 0xff#8, 0xff#8] := by
      rw [← hU, List.drop_replicate, List.take_replicate]; rfl
    rw [h2] at h
    have h3 : Fat.entryValue .fat12 0xff0 [0xff#8, 0xff#8, 0xff#8] = .ok 0xfff := by decide +kernel
    rw [h3] at h
    exact (R.ok.inj h).symm
  refine ⟨⟨.fat12, 0, 4096, 8192, 1⟩, U, BlockTree.new 1 0 1, ?_, by decide, by show 8192 + (0xff0 - 2) * 1 + 1 ≤ _; omega,
    rfl, ?_⟩
  · refine .next (by decide) (by decide) (.last ?_)
    show 0xff8 ≤ Fat.stored .w12 U 0xff0
    omega
  · rfl

/-- C31 is false of the code: a file with more clusters than its size asks for, as after preallocation,
cannot be opened. -/
theorem C31_violated_long : ∃ (t : Fat.Table) (U : List Byte), Fat.Chain (Fat.width t.format) U 2 [2, 3] ∧
    Fat.openTree t U 2 1 2 = .err :=
  ⟨⟨.fat16, 0, 4, 8, 2⟩, [0#8, 0#8, 0#8, 0#8, 3#8, 0#8, 0xff#8, 0xff#8, 1#8, 2#8, 3#8, 4#8],
    .next (by decide) (by decide) (.next (by decide +kernel) (by decide +kernel) (.last (by decide +kernel))), rfl⟩

/-- The hypotheses are met by a file of three bytes in the clusters 3 and 2, of two bytes each. -/
example : ∃ tree tr, Fat.openTree ⟨.fat16, 0, 4, 8, 2⟩
      [0#8, 0#8, 0#8, 0#8, 0xff#8, 0xff#8, 2#8, 0#8, 1#8, 2#8, 3#8, 4#8] 2 3 3 = .ok tree ∧
    Stream.run (Fat.stream [0#8, 0#8, 0#8, 0#8, 0xff#8, 0xff#8, 2#8, 0#8, 1#8, 2#8, 3#8, 4#8] tree 3) ⟨(), 0⟩
      [.read 2, .read 9, .seek (.start 1), .read 2] = .ok tr ∧ tr.map Prod.fst = [.read 2, .read 9, .seek (.start 1), .read 2] ∧
    Trace true [3#8, 4#8, 1#8] 3 0 tr :=
  C31_contents_partial ⟨.fat16, 0, 4, 8, 2⟩ _ 3 3 [3, 2] ⟨by decide, by decide, by decide, by decide, by decide, by decide⟩
    (by decide) (.next (by decide) (by decide) (.next (by decide +kernel) (by decide +kernel) (.last (by decide +kernel))))
    (by decide) (by decide) (by decide) (by decide) rfl (by decide) _ (by decide)

/-- A cyclic chain: cluster 2 and cluster 3 name each other. -/
example : Fat.openTree ⟨.fat16, 0, 4, 8, 2⟩ [0#8, 0#8, 0#8, 0#8, 3#8, 0#8, 2#8, 0#8, 1#8, 2#8, 3#8, 4#8] 2 100 3 = .err := by
  refine C31_cyclic _ _ _ _ _ ⟨by decide, by decide, by decide, by decide, by decide, by decide⟩ (by decide) fun k => ?_
  suffices h : ∀ k, Nat.iterate (Fat.stored .w16 [0#8, 0#8, 0#8, 0#8, 3#8, 0#8, 2#8, 0#8, 1#8, 2#8, 3#8, 4#8]) k 3 = 3 ∨
      Nat.iterate (Fat.stored .w16 [0#8, 0#8, 0#8, 0#8, 3#8, 0#8, 2#8, 0#8, 1#8, 2#8, 3#8, 4#8]) k 3 = 2 by
    rcases h k with h | h <;> exact ⟨by simp only [Fat.width, List.drop_zero]; omega, by simp only [Fat.width, List.drop_zero]; omega⟩
  intro k
  induction k with
  | zero => exact Or.inl rfl
  | succ k ih =>
    rw [Function.iterate_succ_apply']
    rcases ih with h | h <;> rw [h]
    · right; decide +kernel
    · left; decide +kernel

end Keramics.Props
