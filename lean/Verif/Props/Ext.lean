import Verif.Lemmas.Ext

/-!
# C36, C37: ext extents and block numbers
-/

namespace Keramics.Props
open Keramics.Ext Keramics.Spec Keramics.Spec.Ext

/-! ## C36 -/

/-- C36: the contents of a file with an extents tree of any depth up to 5, with the tree stored in blocks of the
volume and its root in the inode. The extents are in order, do not overlap and end at most at block `blocks`.
Holes and extents that are not written read as zeros, everything else as the blocks the extents name. -/
theorem C36_contents (volume : List Byte) (bs blocks size depth : Nat) (root : List Byte) (extents : List Extent)
    (hbs : 0 < bs) (hvol : volume.length < 2 ^ 64) (hdepth : depth ≤ 5) (hstored : Stored volume bs depth root extents)
    (hok : ∀ e ∈ extents, e.Ok) (horder : Ordered blocks 0 extents)
    (hin : ∀ e ∈ extents, e.written = true → (e.start + e.count) * bs ≤ volume.length)
    (hfit : blocks * bs < 2 ^ 63) (hsize : size ≤ blocks * bs) (ops : List StreamOp) (hf : size + seekBudget ops < 2 ^ 63) :
    ∃ ranges tree tr, readExtents volume bs blocks root = .ok ranges ∧ openTree bs blocks ranges = .ok tree ∧
      Stream.run (stream volume bs tree size) ⟨(), 0⟩ ops = .ok tr ∧ tr.map Prod.fst = ops ∧
      Trace true (contents volume bs (extentBlock extents) blocks size) size 0 tr := by
  have h1 := Ext.readNode_ok hvol depth hdepth hstored hok (parent := 6) (fuel := 6) (by omega) (by omega) ⟨0, []⟩
  have h2 := Ext.extents_covers (f := extentBlock extents) extents hok ⟨0, []⟩ ⟨rfl, rfl⟩ horder (fun _ _ => rfl)
  simp only at h2
  obtain ⟨c1, c2, c3⟩ := h2
  obtain ⟨f1, f2⟩ := Ext.fillEnd_covers c1 c2 (fun b hb _ => c3 b hb)
  obtain ⟨tree, tr, t1, t2, t3, t4⟩ := Ext.stream_trace (U := volume) (map := extentBlock extents) hbs f1 f2 (by
    intro b p _ hm
    unfold extentBlock at hm
    obtain ⟨e, he, rfl⟩ := Option.map_eq_some_iff.1 hm
    have hmem := List.mem_of_find?_eq_some he
    have hp := List.find?_some he
    simp only [decide_eq_true_eq] at hp
    have := hin e hmem hp.2.2
    have h := Nat.mul_le_mul_right bs (show e.start + (b - e.logical) + 1 ≤ e.start + e.count by omega)
    omega) hvol hfit hsize ops hf
  refine ⟨_, tree, tr, ?_, t1, t2, t3, t4⟩
  unfold readExtents
  rw [h1, R.ok_bind]; rfl

/-- C36: the ranges read from a tree list every block below `blocks` exactly once and in order, with the block of
the volume its extent gives it. -/
theorem C36_ranges (volume : List Byte) (bs blocks depth : Nat) (root : List Byte) (extents : List Extent)
    (hvol : volume.length < 2 ^ 64) (hdepth : depth ≤ 5) (hstored : Stored volume bs depth root extents)
    (hok : ∀ e ∈ extents, e.Ok) (horder : Ordered blocks 0 extents) :
    ∃ ranges, readExtents volume bs blocks root = .ok ranges ∧
      ranges.flatMap (fun r => (List.range r.count).map fun i => (r.logical + i, if r.sparse then none else some (r.physical + i))) =
        (List.range blocks).map fun b => (b, extentBlock extents b) := by
  have h1 := Ext.readNode_ok hvol depth hdepth hstored hok (parent := 6) (fuel := 6) (by omega) (by omega) ⟨0, []⟩
  have h2 := Ext.extents_covers (f := extentBlock extents) extents hok ⟨0, []⟩ ⟨rfl, rfl⟩ horder (fun _ _ => rfl)
  simp only at h2
  obtain ⟨c1, c2, c3⟩ := h2
  obtain ⟨f1, f2⟩ := Ext.fillEnd_covers c1 c2 (fun b hb _ => c3 b hb)
  refine ⟨_, by unfold readExtents; rw [h1, R.ok_bind]; rfl, ?_⟩
  have := Ext.chain_pairs (map := extentBlock extents) (a := 0) (n := blocks) (by rw [Nat.zero_add]; exact f1) (by simpa using f2)
  simpa using this

/-- C36: reading any tree ends, also one whose nodes refer to each other in a circle: the depth gets smaller at
every step. Steps beyond the six the model allows for make no difference. -/
theorem C36_terminates (volume : List Byte) (bs : Nat) (more : Nat) (data : List Byte) (st : State) :
    readNode volume bs (6 + more) 6 data st = readNode volume bs 6 6 data st := by
  have key : ∀ (p f f' : Nat), p ≤ f → p ≤ f' → ∀ data st, readNode volume bs f p data st = readNode volume bs f' p data st := by
    intro p
    induction p using Nat.strongRecOn with
    | _ p ih =>
      intro f f' hf hf' data st
      have e : ∀ f, readNode volume bs f = nodeWith volume bs (match f with | 0 => fun _ _ _ => .panic | f + 1 => readNode volume bs f) := by
        intro f; cases f <;> rfl
      rw [e f, e f']
      unfold nodeWith
      cases R.slice data 0 12 with
      | err => rfl
      | panic => rfl
      | ok d =>
        rw [R.ok_bind, R.ok_bind]
        cases readHeader d with
        | err => rfl
        | panic => rfl
        | ok h =>
          obtain ⟨n, depth⟩ := h
          rw [R.ok_bind, R.ok_bind]
          by_cases hd : depth < p
          · rw [R.require_true hd, R.ok_bind]
            congr 1
            cases depth with
            | zero => rfl
            | succ depth =>
              obtain ⟨f, rfl⟩ : ∃ k, f = k + 1 := ⟨f - 1, by omega⟩
              obtain ⟨f', rfl⟩ : ∃ k, f' = k + 1 := ⟨f' - 1, by omega⟩
              simp only [nodeEntries]
              rw [show readNode volume bs f (depth + 1) = readNode volume bs f' (depth + 1) from
                funext fun data => funext fun st => ih (depth + 1) hd f f' (by omega) (by omega) data st]
          · rw [R.require_false hd]; rfl
  exact key 6 _ _ (by omega) (by omega) data st

/-- Finding: a root that claims more entries than fit in the inode makes the code panic. -/
theorem C36_count_panics (volume : List Byte) (bs blocks : Nat) :
    readExtents volume bs blocks (header 5 4 0 0 ++ List.replicate 48 1#8) = .panic := by
  have h : leafLoop (header 5 4 0 0 ++ List.replicate 48 1#8) 5 12 ⟨0, []⟩ = .panic := by decide +kernel
  have h2 : R.slice (header 5 4 0 0 ++ List.replicate 48 1#8) 0 12 = .ok (header 5 4 0 0) := by decide +kernel
  unfold readExtents readNode nodeWith
  rw [h2, R.ok_bind, Ext.readHeader_ok _ _ _ _ (by decide) (by decide), R.ok_bind, R.require_true (by decide), R.ok_bind, nodeEntries, h]
  rfl

/-- A volume of ten blocks of 64 bytes; block 1 is a leaf with an extent of two blocks, the first two blocks of the
file being a hole, and an extent that is not written. -/
private def volume36 : List Byte :=
  List.replicate 64 0#8 ++ (header 2 4 0 0 ++ (Extent.bytes ⟨2, 2, 5, true⟩ ++ Extent.bytes ⟨4, 1, 8, false⟩) ++ List.replicate 28 0#8) ++
    List.replicate 512 7#8

/-- The hypotheses are met by a tree of depth 1. -/
example : ∃ root, Stored volume36 64 1 root [⟨2, 2, 5, true⟩, ⟨4, 1, 8, false⟩] ∧
    (∀ e ∈ ([⟨2, 2, 5, true⟩, ⟨4, 1, 8, false⟩] : List Extent), e.Ok) ∧ Ordered 6 0 [⟨2, 2, 5, true⟩, ⟨4, 1, 8, false⟩] ∧
    ∀ e ∈ ([⟨2, 2, 5, true⟩, ⟨4, 1, 8, false⟩] : List Extent), e.written = true → (e.start + e.count) * 64 ≤ volume36.length := by
  refine ⟨header 1 4 1 0 ++ indexBytes 2 1 0 ++ List.replicate 36 0#8, ?_, ?_, ?_, ?_⟩
  · refine ⟨4, 0, List.replicate 36 0#8, [⟨2, 1, 0, [⟨2, 2, 5, true⟩, ⟨4, 1, 8, false⟩]⟩], by decide, by simp, by simp, ?_⟩
    intro c hc
    rw [List.mem_singleton] at hc
    subst hc
    refine ⟨by decide, by decide +kernel, 4, 0, List.replicate 28 0#8, by decide, by decide +kernel⟩
  · intro e he
    simp at he
    rcases he with rfl | rfl <;> simp [Extent.Ok]
  · simp [Ordered]
  · decide +kernel

/-! ## C37 -/

/-- C37: the contents of a file with direct, single, double and triple indirect blocks. A number 0 is a hole, at
every level. -/
theorem C37_contents (volume : List Byte) (bs blocks size : Nat) (inode : List Byte) (hlen : inode.length = 60)
    (hbs : 4 ≤ bs) (hbs2 : bs ≤ 65536) (hbs4 : bs % 4 = 0) (hvol : volume.length < 2 ^ 64)
    (htables : Inside volume bs 1 (number inode 12) ∧ Inside volume bs 2 (number inode 13) ∧ Inside volume bs 3 (number inode 14))
    (hin : ∀ b p, b < blocks → numberBlock volume bs inode b = some p → (p + 1) * bs ≤ volume.length)
    (hfit : blocks * bs < 2 ^ 63) (hsize : size ≤ blocks * bs) (ops : List StreamOp) (hf : size + seekBudget ops < 2 ^ 63) :
    ∃ ranges tree tr, readBlockNumbers volume bs blocks inode = .ok ranges ∧ openTree bs blocks ranges = .ok tree ∧
      Stream.run (stream volume bs tree size) ⟨(), 0⟩ ops = .ok tr ∧ tr.map Prod.fst = ops ∧
      Trace true (contents volume bs (numberBlock volume bs inode) blocks size) size 0 tr := by
  have hb : blocks < 2 ^ 63 := by
    have := Nat.le_mul_of_pos_right blocks (show 0 < bs by omega)
    omega
  obtain ⟨g1, g2⟩ := Ext.readBlockNumbers_good (U := volume) hbs hbs2 hbs4 hb inode hlen
  cases hr : readBlockNumbers volume bs blocks inode with
  | err => exact absurd hr (g2 htables)
  | panic => exact absurd hr g1.ne_panic
  | ok ranges =>
    obtain ⟨c1, c2⟩ := g1.of_ok hr
    obtain ⟨tree, tr, t⟩ := Ext.stream_trace (U := volume) (by omega) c1 c2 hin hvol hfit hsize ops hf
    exact ⟨ranges, tree, tr, rfl, t⟩

/-- C37: the ranges read from the references list every block below `blocks` exactly once and in order, with the
block of the volume stored for it. -/
theorem C37_ranges (volume : List Byte) (bs blocks : Nat) (inode : List Byte) (hlen : inode.length = 60)
    (hbs : 4 ≤ bs) (hbs2 : bs ≤ 65536) (hbs4 : bs % 4 = 0) (hblocks : blocks < 2 ^ 63)
    (htables : Inside volume bs 1 (number inode 12) ∧ Inside volume bs 2 (number inode 13) ∧ Inside volume bs 3 (number inode 14)) :
    ∃ ranges, readBlockNumbers volume bs blocks inode = .ok ranges ∧
      ranges.flatMap (fun r => (List.range r.count).map fun i => (r.logical + i, if r.sparse then none else some (r.physical + i))) =
        (List.range blocks).map fun b => (b, numberBlock volume bs inode b) := by
  obtain ⟨g1, g2⟩ := Ext.readBlockNumbers_good (U := volume) hbs hbs2 hbs4 hblocks inode hlen
  cases hr : readBlockNumbers volume bs blocks inode with
  | err => exact absurd hr (g2 htables)
  | panic => exact absurd hr g1.ne_panic
  | ok ranges =>
    obtain ⟨c1, c2⟩ := g1.of_ok hr
    have := Ext.chain_pairs (map := numberBlock volume bs inode) (a := 0) (n := blocks) (by rw [Nat.zero_add]; exact c1) (by simpa using c2)
    exact ⟨ranges, rfl, by simpa using this⟩

/-- C37: also if some table lies outside of the volume there is no panic, and if the map is read nevertheless (the
table is not needed for the blocks of the file), the contents are the ones of the map. -/
theorem C37_sound (volume : List Byte) (bs blocks size : Nat) (inode : List Byte) (hlen : inode.length = 60)
    (hbs : 4 ≤ bs) (hbs2 : bs ≤ 65536) (hbs4 : bs % 4 = 0) (hvol : volume.length < 2 ^ 64)
    (hin : ∀ b p, b < blocks → numberBlock volume bs inode b = some p → (p + 1) * bs ≤ volume.length)
    (hfit : blocks * bs < 2 ^ 63) (hsize : size ≤ blocks * bs) (ops : List StreamOp) (hf : size + seekBudget ops < 2 ^ 63) :
    readBlockNumbers volume bs blocks inode = .err ∨
    ∃ ranges tree tr, readBlockNumbers volume bs blocks inode = .ok ranges ∧ openTree bs blocks ranges = .ok tree ∧
      Stream.run (stream volume bs tree size) ⟨(), 0⟩ ops = .ok tr ∧ tr.map Prod.fst = ops ∧
      Trace true (contents volume bs (numberBlock volume bs inode) blocks size) size 0 tr := by
  have hb : blocks < 2 ^ 63 := by
    have := Nat.le_mul_of_pos_right blocks (show 0 < bs by omega)
    omega
  obtain ⟨g1, -⟩ := Ext.readBlockNumbers_good (U := volume) hbs hbs2 hbs4 hb inode hlen
  cases hr : readBlockNumbers volume bs blocks inode with
  | err => exact Or.inl rfl
  | panic => exact absurd hr g1.ne_panic
  | ok ranges =>
    obtain ⟨c1, c2⟩ := g1.of_ok hr
    obtain ⟨tree, tr, t⟩ := Ext.stream_trace (U := volume) (by omega) c1 c2 hin hvol hfit hsize ops hf
    exact Or.inr ⟨ranges, tree, tr, rfl, t⟩

/-- Nine blocks of 8 bytes; block 1 is a table with a hole and block 5, block 2 a table with block 1 and a hole. -/
private def volume37 : List Byte :=
  List.replicate 8 9#8 ++ leBytes 4 0 ++ leBytes 4 5 ++ leBytes 4 1 ++ leBytes 4 0 ++ List.replicate 48 7#8

private def inode37 : List Byte :=
  leBytes 4 3 ++ leBytes 4 4 ++ leBytes 4 0 ++ leBytes 4 4 ++ List.replicate 32 0#8 ++ leBytes 4 1 ++ leBytes 4 2 ++ leBytes 4 0

/-- The hypotheses are met by a file with two consecutive blocks, holes, a single and a double indirect block. -/
example : inode37.length = 60 ∧
    (Inside volume37 8 1 (number inode37 12) ∧ Inside volume37 8 2 (number inode37 13) ∧ Inside volume37 8 3 (number inode37 14)) ∧
    (∀ b, b < 20 → ∀ p, numberBlock volume37 8 inode37 b = some p → (p + 1) * 8 ≤ volume37.length) ∧
    (List.range 18).map (numberBlock volume37 8 inode37) =
      [some 3, some 4, none, some 4, none, none, none, none, none, none, none, none, none, some 5, none, some 5, none, none] := by
  have n12 : number inode37 12 = 1 := by decide +kernel
  have n13 : number inode37 13 = 2 := by decide +kernel
  have n14 : number inode37 14 = 0 := by decide +kernel
  have e0 : number (block volume37 8 2) 0 = 1 := by decide +kernel
  have e1 : number (block volume37 8 2) 1 = 0 := by decide +kernel
  refine ⟨by decide +kernel, ⟨?_, ?_, ?_⟩, ?_, by decide +kernel⟩
  · rw [n12]; exact Or.inr ⟨by decide +kernel, fun _ _ => trivial⟩
  · rw [n13]
    refine Or.inr ⟨by decide +kernel, fun i hi => ?_⟩
    have : i = 0 ∨ i = 1 := by omega
    rcases this with rfl | rfl
    · rw [e0]; exact Or.inr ⟨by decide +kernel, fun _ _ => trivial⟩
    · rw [e1]; exact Or.inl rfl
  · rw [n14]; exact Or.inl rfl
  · have : ∀ b, b < 20 → ((numberBlock volume37 8 inode37 b).all fun p => (p + 1) * 8 ≤ volume37.length) = true := by decide +kernel
    intro b hb p hp
    have := this b hb
    rw [hp] at this
    simpa using this

end Keramics.Props
