import Verif.Lemmas.Bzip2Bwt

/-! # C29: the reverse Burrows-Wheeler transform of bzip2 -/

namespace Keramics.Props
open Keramics.Spec.Bwt

/-- From the transform of the stored runs of a block, the reverse transform writes the bytes of the block at the offset, leaves the others as they were, and
moves the offset past the block. `extra` is what follows the transform in the data. -/
theorem C29_reverse (runs : List (Byte × Nat)) (hv : ValidRuns runs) (hs : (stored runs).length ≤ 100000) (last : List Byte) (origin : Nat)
    (ht : IsTransform (stored runs) last origin) (extra out : List Byte) (offset : Nat) (h : offset + (expanded runs).length ≤ out.length) :
    Bzip2.reverse (last ++ extra) last.length origin out offset =
      .ok (out.take offset ++ expanded runs ++ out.drop (offset + (expanded runs).length), offset + (expanded runs).length) :=
  Bzip2.reverse_ok hv hs ht extra out offset h

/-- Every block has runs, and every block that is not empty has a transform: with `C29_reverse`, every block whose runs are not too long is restored from
the transform of its runs. -/
theorem C29_complete (block : List Byte) :
    (∃ runs, ValidRuns runs ∧ expanded runs = block) ∧
    (block ≠ [] → ∃ last origin, IsTransform block last origin ∧ last.length = block.length) := by
  obtain ⟨runs, h1, h2, -⟩ := Bzip2.runs_exist block
  exact ⟨⟨runs, h1, h2⟩, Bzip2.transform_exists block⟩

/-- No block, of at most the size of the buffer, and no origin that is accepted makes it panic. -/
theorem C29_safe (data : List Byte) (size origin : Nat) (out : List Byte) (offset : Nat) (hs : size ≤ data.length) (hb : size ≤ 100000) (ho : origin < 100000)
    (h : offset ≤ out.length) : Bzip2.reverse data size origin out offset ≠ .panic :=
  Bzip2.reverse_safe data size origin out offset hs hb ho h

/-- The block `banana`: `nnbaaa` is its transform, with origin 3. -/
example : let block := [0x62#8, 0x61#8, 0x6e#8, 0x61#8, 0x6e#8, 0x61#8]
    stored [(0x62#8, 1), (0x61#8, 1), (0x6e#8, 1), (0x61#8, 1), (0x6e#8, 1), (0x61#8, 1)] = block ∧
    ValidRuns [(0x62#8, 1), (0x61#8, 1), (0x6e#8, 1), (0x61#8, 1), (0x6e#8, 1), (0x61#8, 1)] ∧
    IsTransform block [0x6e#8, 0x6e#8, 0x62#8, 0x61#8, 0x61#8, 0x61#8] 3 := by
  refine ⟨by decide, by simp [ValidRuns],
    [[0x61#8, 0x62#8, 0x61#8, 0x6e#8, 0x61#8, 0x6e#8], [0x61#8, 0x6e#8, 0x61#8, 0x62#8, 0x61#8, 0x6e#8], [0x61#8, 0x6e#8, 0x61#8, 0x6e#8, 0x61#8, 0x62#8],
     [0x62#8, 0x61#8, 0x6e#8, 0x61#8, 0x6e#8, 0x61#8], [0x6e#8, 0x61#8, 0x62#8, 0x61#8, 0x6e#8, 0x61#8], [0x6e#8, 0x61#8, 0x6e#8, 0x61#8, 0x62#8, 0x61#8]],
    by decide +kernel, by simp [lexLe], by decide, by decide⟩

/-- A run of 6 bytes is stored as 4 and the number 2. -/
example : stored [(7#8, 6), (7#8, 1), (8#8, 2)] = [7#8, 7#8, 7#8, 7#8, 2#8, 7#8, 8#8, 8#8] ∧ ValidRuns [(7#8, 6), (7#8, 1), (8#8, 2)] :=
  ⟨by decide, by simp [ValidRuns]⟩

end Keramics.Props
