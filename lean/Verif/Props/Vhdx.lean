import Verif.Lemmas.Vhdx

/-! # C40: reading VHDX images -/

namespace Keramics.Props.Vhdx
open Keramics.Spec Keramics.Spec.Vhdx

/-- The disk with the values of the metadata: bit 1 of the flags tells that there is a parent, and entries of the table are 8 bytes. -/
def disk (m : Vhdx.Metadata) : Disk := ⟨m.blockSize, m.sectorSize, m.mediaSize, m.tableOffset, m.tableSize / 8, m.flags / 2 % 2 == 1⟩

/-- The contents of a disk. -/
def media (m : Vhdx.Metadata) (file : List Byte) (parent : Option (List Byte)) : List Byte :=
  layered file (parent.getD []) (source (disk m) file) m.mediaSize

/-- The flags of a disk, and for flags 0 its size, are such that the entries of its blocks are found: see `C40_violated_chunks` and
`C40_violated_flags`. -/
def Found (m : Vhdx.Metadata) : Prop :=
  (m.flags % 4 = 0 ∧ m.mediaSize ≤ perChunk (disk m) * m.blockSize) ∨ m.flags % 4 = 1 ∨ m.flags % 4 = 2

/-- Opening: the values in range, with a table that is large enough, are accepted, no others are, and nothing makes it panic. -/
theorem C40_open (m : Vhdx.Metadata) (h32 : m.tableSize < 2 ^ 32) :
    Vhdx.openImage m ≠ .panic ∧
    ((∃ p, Vhdx.openImage m = .ok p) ↔ (2 ^ 20 ≤ m.blockSize ∧ m.blockSize ≤ 2 ^ 28) ∧ (m.sectorSize = 512 ∨ m.sectorSize = 4096) ∧
      m.mediaSize ≤ m.tableSize / 8 * m.blockSize) ∧
    ∀ image tree, Vhdx.openImage m = .ok (image, tree) → image.mediaSize = m.mediaSize := by
  have h := Vhdx.openImage_good m h32
  refine ⟨h.ne_panic, ⟨fun ⟨p, hp⟩ => ?_, fun hs => ?_⟩, fun image tree hp => ?_⟩
  · obtain ⟨-, h1, h2, h3⟩ := h.of_ok hp
    exact ⟨h1, h2, h3⟩
  · obtain ⟨p, hp, -⟩ := h.exists_ok ⟨hs.1, hs.2.1, hs.2.2⟩
    exact ⟨p, hp⟩
  · have := (h.of_ok hp).1
    rw [Prod.mk.injEq] at this
    rw [this.1]
    rfl

private theorem opened {m : Vhdx.Metadata} (hv : Valid (disk m)) (h32 : m.tableSize < 2 ^ 32) : Vhdx.openImage m = .ok (Vhdx.imageOf m, Vhdx.treeOf m) := by
  have hx := Vhdx.valid_cases hv
  obtain ⟨p, hok, rfl, -⟩ := (Vhdx.openImage_good m h32).exists_ok ⟨⟨hx.2.2.2.2.2.1, hx.2.2.2.2.2.2.1⟩, hv.sectorSize, hv.media⟩
  exact hok

private theorem layered_code {m : Vhdx.Metadata} {file parent : List Byte} (hst : StatesOk (disk m) file) :
    layered file parent (Vhdx.sourceCode (disk m) file) m.mediaSize = layered file parent (source (disk m) file) m.mediaSize := by
  unfold layered
  apply List.map_congr_left
  intro x hx
  rw [List.mem_range] at hx
  rw [Vhdx.sourceCode_eq (d := disk m) hst hx]

private theorem inside_code {m : Vhdx.Metadata} {file parent : List Byte} (hst : StatesOk (disk m) file)
    (hin : LayeredInside file parent (source (disk m) file) m.mediaSize) : LayeredInside file parent (Vhdx.sourceCode (disk m) file) m.mediaSize := by
  intro x hx
  rw [Vhdx.sourceCode_eq (d := disk m) hst hx]
  exact hin x hx

/-- Every history of reads and seeks succeeds and gives the bytes of the blocks and sectors in the file, and for the others zeros or the bytes
of the parent: for disks whose blocks are in the file with all their sectors or with none.
Missing: blocks of which only some sectors are in the file, for those see `C40_sound_partial`; blocks of a disk with a parent that are not present
at all, see `C40_violated_absent`; and disks that are not `Found`. -/
theorem C40_contents_partial (m : Vhdx.Metadata) (file : List Byte) (parent : Option (List Byte)) (h32 : m.tableSize < 2 ^ 32) (hv : Valid (disk m))
    (hl : Found m) (hst : StatesOk (disk m) file) (hw : Whole (disk m) file) (ht : TableInside (disk m) file) (hpl : PlacesBelow (disk m) file)
    (hU : file.length < 2 ^ 63)
    (hin : LayeredInside file (parent.getD []) (source (disk m) file) m.mediaSize) (ops : List StreamOp) (hf : m.mediaSize + seekBudget ops < 2 ^ 63) :
    ∃ image tree, Vhdx.openImage m = .ok (image, tree) ∧ ∃ tr, Stream.run (Vhdx.stream image file parent) ⟨tree, 0⟩ ops = .ok tr ∧
      tr.map Prod.fst = ops ∧ Trace true (media m file parent) m.mediaSize 0 tr := by
  refine ⟨_, _, opened hv h32, ?_⟩
  have hwc : Vhdx.WholeCode (disk m) file := by
    intro hp b hu h6
    have hs := hst b hu
    rw [hp] at hs
    simp only [if_true] at hs
    exact hw b hu (by omega)
  have := Vhdx.stream_whole (m := m) (file := file) hv hl hwc ht hpl hU (inside_code hst hin) ops hf
  rw [show Vhdx.diskOf m = disk m from rfl, layered_code hst] at this
  exact this

/-- Also with blocks of which only some sectors are in the file: a history that succeeds gives the right bytes. Missing: that it succeeds. -/
theorem C40_sound_partial (m : Vhdx.Metadata) (file : List Byte) (parent : Option (List Byte)) (h32 : m.tableSize < 2 ^ 32) (hv : Valid (disk m))
    (hl : Found m) (hst : StatesOk (disk m) file) (hpl : PlacesBelow (disk m) file) (hm : m.mediaSize < 2 ^ 63)
    (hin : LayeredInside file (parent.getD []) (source (disk m) file) m.mediaSize) (ops : List StreamOp) (hty : ∀ op ∈ ops, typed op)
    (image : Vhdx.Image) (tree : Lazy.Tree) (hok : Vhdx.openImage m = .ok (image, tree)) (tr)
    (h : Stream.run (Vhdx.stream image file parent) ⟨tree, 0⟩ ops = .ok tr) :
    Trace true (media m file parent) m.mediaSize 0 tr := by
  rw [opened hv h32, R.ok.injEq, Prod.mk.injEq] at hok
  obtain ⟨rfl, rfl⟩ := hok
  have := Vhdx.stream_right (m := m) (file := file) hv hl hpl hm (inside_code hst hin) ops hty tr h
  rw [show Vhdx.diskOf m = disk m from rfl, layered_code hst] at this
  exact this

/-- Open a disk and run a history. -/
def run40 (m : Vhdx.Metadata) (file : List Byte) (parent : Option (List Byte)) (ops : List StreamOp) : R (List (StreamOp × StreamOut)) := do
  let (image, tree) ← Vhdx.openImage m
  Stream.run (Vhdx.stream image file parent) ⟨tree, 0⟩ ops

private theorem bytesAt_append {a b : List Byte} {o n : Nat} (h : o + n ≤ a.length) : bytesAt (a ++ b) o n = bytesAt a o n := by
  unfold bytesAt
  rw [List.drop_append_of_le_length (by omega), List.take_append_of_le_length (by rw [List.length_drop]; omega)]

private theorem entry_append {d : Disk} {a b : List Byte} {i : Nat} (h : d.tableOffset + i * 8 + 8 ≤ a.length) : entry d (a ++ b) i = entry d a i := by
  unfold entry field
  rw [bytesAt_append h]

/-- A table at the start of a file, and what is from 1 MiB on. -/
private def file40 (table : List Byte) (data : List Byte) : List Byte := table ++ (List.replicate (2 ^ 20 - table.length) 0#8 ++ data)

private theorem file40_length {table data : List Byte} (h : table.length ≤ 2 ^ 20) : (file40 table data).length = 2 ^ 20 + data.length := by
  unfold file40
  rw [List.length_append, List.length_append, List.length_replicate]
  omega

private theorem file40_get {table data : List Byte} {i : Nat} (h : table.length ≤ 2 ^ 20) : (file40 table data).getD (2 ^ 20 + i) 0#8 = data.getD i 0#8 := by
  unfold file40
  rw [List.getD_eq_getElem?_getD, List.getD_eq_getElem?_getD, List.getElem?_append_right (by omega),
    List.getElem?_append_right (by rw [List.length_replicate]; omega), List.length_replicate]
  congr 2
  omega

/-- A disk without parent of two blocks of 1 MiB, the first of which is in the file, with 5 bytes of media in it. -/
private def dynamic40 : Vhdx.Metadata := ⟨2 ^ 20, 1, 2 ^ 20 + 5, 512, 0, 16⟩
private def dynamicFile40 : List Byte := file40 [2#8, 0#8, 0#8, 0#8, 0#8, 0#8, 0#8, 0#8, 6#8, 0#8, 0x10#8, 0#8, 0#8, 0#8, 0#8, 0#8] [1#8, 2#8, 3#8, 4#8, 5#8]

/-- The hypotheses of `C40_contents_partial` are met. -/
example : Valid (disk dynamic40) ∧ Found dynamic40 ∧ StatesOk (disk dynamic40) dynamicFile40 ∧ Whole (disk dynamic40) dynamicFile40 ∧
    TableInside (disk dynamic40) dynamicFile40 ∧ PlacesBelow (disk dynamic40) dynamicFile40 ∧ dynamicFile40.length < 2 ^ 63 ∧
    LayeredInside dynamicFile40 [] (source (disk dynamic40) dynamicFile40) dynamic40.mediaSize := by
  have hlen : dynamicFile40.length = 2 ^ 20 + 5 := file40_length (by decide +kernel)
  have hc : perChunk (disk dynamic40) = 4096 := by decide +kernel
  have e0 : entry (disk dynamic40) dynamicFile40 0 = 2 := (entry_append (by decide +kernel)).trans (by decide +kernel)
  have e1 : entry (disk dynamic40) dynamicFile40 1 = 6 + 2 ^ 20 := (entry_append (by decide +kernel)).trans (by decide +kernel)
  generalize hfile : dynamicFile40 = file at *
  have hen : (disk dynamic40).entries = 2 := by decide +kernel
  have hb : ∀ b, Used (disk dynamic40) b → b = 0 ∨ b = 1 := by
    intro b hb
    have hb : b * 2 ^ 20 < 2 ^ 20 + 5 := hb
    omega
  have hbi : ∀ b, b < 2 → blockIndex (disk dynamic40) b = b := by
    intro b hb
    unfold blockIndex
    rw [hc, Nat.div_eq_of_lt (by omega)]
    rfl
  have hs : ∀ b, Used (disk dynamic40) b → state (disk dynamic40) file (blockIndex (disk dynamic40) b) ≠ 7 := by
    intro b hu
    rcases hb b hu with rfl | rfl
    · rw [hbi 0 (by omega)]; unfold state; rw [e0]; decide
    · rw [hbi 1 (by omega)]; unfold state; rw [e1]; decide
  refine ⟨⟨⟨20, by omega, by omega, rfl⟩, Or.inl rfl, by decide, by decide +kernel⟩, Or.inr (Or.inl rfl), fun b hu => hs b hu, fun b hu h => absurd h (hs b hu),
    ⟨by rw [hlen]; decide +kernel, fun b hu => ⟨?_, fun h => absurd h (by decide)⟩⟩, fun i hi => ?_, by omega, fun x hx => ?_⟩
  · rw [hbi b (by rcases hb b hu with rfl | rfl <;> omega), hen]
    rcases hb b hu with rfl | rfl <;> omega
  · have hbs : (disk dynamic40).blockSize = 2 ^ 20 := rfl
    rw [hen] at hi
    unfold place
    rw [hbs]
    rcases (show i = 0 ∨ i = 1 by omega) with rfl | rfl
    · rw [e0]; omega
    · rw [e1]; omega
  · have hx : x < 2 ^ 20 + 5 := hx
    have hd : (disk dynamic40).blockSize = 2 ^ 20 := rfl
    have hnp : (disk dynamic40).hasParent = false := rfl
    have hcases : source (disk dynamic40) file x = if x < 2 ^ 20 then .zero else .file (2 ^ 20 + x % 2 ^ 20) := by
      unfold source
      simp only [hd, hnp]
      by_cases hlt : x < 2 ^ 20
      · rw [if_pos hlt, Nat.div_eq_of_lt hlt, hbi 0 (by omega), if_neg (by unfold state; rw [e0]; decide)]
        rfl
      · rw [if_neg hlt, show x / 2 ^ 20 = 1 by omega, hbi 1 (by omega), if_pos (by unfold state; rw [e1]; decide)]
        unfold place
        rw [e1]
        congr 1
    by_cases hlt : x < 2 ^ 20
    · rw [hcases, if_pos hlt]; trivial
    · rw [hcases, if_neg hlt]; simp only; omega

/-- A disk with a parent of blocks of 256 MiB, 16 of which share an entry with their bitmaps. The first block is partially present, with all sectors in the file;
its bitmap, of 64 KiB, is at 1 MiB, and so are its bytes. -/
private def parent40 : Vhdx.Metadata := ⟨2 ^ 28, 2, 5000, 512, 0, 136⟩
private def parentFile40 : List Byte := file40 ([7#8, 0#8, 0x10#8, 0#8, 0#8, 0#8, 0#8, 0#8] ++ List.replicate 120 0#8 ++ [6#8, 0#8, 0x10#8, 0#8, 0#8, 0#8, 0#8, 0#8])
  (List.replicate 65536 0xff#8)

/-- The hypotheses of `C40_contents_partial` and of `C40_sound_partial` are met by a disk with a bitmap. -/
example : Valid (disk parent40) ∧ Found parent40 ∧ StatesOk (disk parent40) parentFile40 ∧ Whole (disk parent40) parentFile40 ∧
    TableInside (disk parent40) parentFile40 ∧ PlacesBelow (disk parent40) parentFile40 ∧ parentFile40.length < 2 ^ 63 ∧
    LayeredInside parentFile40 [] (source (disk parent40) parentFile40) parent40.mediaSize := by
  have hlen : parentFile40.length = 2 ^ 20 + 65536 := by
    have := file40_length (table := [7#8, 0#8, 0x10#8, 0#8, 0#8, 0#8, 0#8, 0#8] ++ List.replicate 120 0#8 ++ [6#8, 0#8, 0x10#8, 0#8, 0#8, 0#8, 0#8, 0#8])
      (data := List.replicate 65536 0xff#8) (by decide +kernel)
    rw [List.length_replicate] at this
    exact this
  have hc : perChunk (disk parent40) = 16 := by decide +kernel
  have he : ∀ i, i < 17 → entry (disk parent40) parentFile40 i = if i = 0 then 7 + 2 ^ 20 else if i = 16 then 6 + 2 ^ 20 else 0 := by
    intro i hi
    refine (entry_append (by
      have : (disk parent40).tableOffset = 0 := rfl
      rw [this]
      have : ([7#8, 0#8, 0x10#8, 0#8, 0#8, 0#8, 0#8, 0#8] ++ List.replicate 120 0#8 ++ [6#8, 0#8, 0x10#8, 0#8, 0#8, 0#8, 0#8, 0#8]).length = 136 := by decide +kernel
      omega)).trans ?_
    revert i
    decide +kernel
  have hget : ∀ i, i < 65536 → parentFile40.getD (2 ^ 20 + i) 0#8 = 0xff#8 := by
    intro i hi
    refine (file40_get (by decide +kernel)).trans ?_
    rw [List.getD_eq_getElem?_getD, List.getElem?_replicate_of_lt hi]
    rfl
  generalize hfile : parentFile40 = file at *
  have hen : (disk parent40).entries = 17 := by decide +kernel
  have hb : ∀ b, Used (disk parent40) b → b = 0 := by
    intro b hb
    have hb : b * 2 ^ 28 < 5000 := hb
    omega
  have hbi : blockIndex (disk parent40) 0 = 0 := by decide +kernel
  have hbm : bitmapIndex (disk parent40) 0 = 16 := by decide +kernel
  have hbz : bitmapSize (disk parent40) = 65536 := by decide +kernel
  have hbp : bitmapPlace (disk parent40) file 0 = 2 ^ 20 := by
    unfold bitmapPlace place
    rw [hbm, he 16 (by omega), Nat.zero_mod, Nat.zero_mul]
    decide
  have hs : state (disk parent40) file 0 = 7 := by unfold state; rw [he 0 (by omega)]; decide
  have hp : place (disk parent40) file 0 = 2 ^ 20 := by unfold place; rw [he 0 (by omega)]; decide
  have hbit : ∀ i, i < 2 ^ 28 / 512 → bit (disk parent40) file 0 i = true := by
    intro i hi
    unfold bit
    rw [hbp, hget _ (by omega)]
    have : ∀ k, k < 8 → (0xff#8 : Byte).getLsbD k = true := by decide
    exact this _ (Nat.mod_lt _ (by omega))
  refine ⟨⟨⟨28, by omega, by omega, rfl⟩, Or.inl rfl, by decide, by decide +kernel⟩, Or.inr (Or.inr rfl), fun b hu => ?_, fun b hu h i hi => ?_,
    ⟨by rw [hlen]; decide +kernel, fun b hu => ?_⟩, fun i hi => ?_, by omega, fun x hx => ?_⟩
  · rw [hb b hu, hbi]; exact Or.inr hs
  · rw [hb b hu, hbit i hi, hbit 0 (by omega)]
  · rw [hb b hu, hbi, hbm, hbp, hbz, hlen, hen]
    exact ⟨by omega, fun _ => ⟨by omega, by omega⟩⟩
  · have hbs : (disk parent40).blockSize = 2 ^ 28 := rfl
    rw [hen] at hi
    unfold place
    rw [hbs, he i hi]
    split
    · omega
    · split <;> omega
  · have hx : x < 5000 := hx
    have hd : (disk parent40).blockSize = 2 ^ 28 := rfl
    have hsec : (disk parent40).sectorSize = 512 := rfl
    have hnp : (disk parent40).hasParent = true := rfl
    have hcases : source (disk parent40) file x = .file (2 ^ 20 + x) := by
      unfold source
      simp only [hd, hnp, hsec, if_true]
      rw [Nat.div_eq_of_lt (by omega), Nat.mod_eq_of_lt (by omega), hbi, hs, hbit _ (by omega), hp]
      simp
    rw [hcases]
    simp only
    omega

/-- The flags 0 are taken to mean that the table has no entries with bitmaps: of a disk of 17 blocks of 256 MiB whose last block is in the file, the
bytes of that block are not returned. -/
theorem C40_violated_chunks : ∃ (m : Vhdx.Metadata) (file : List Byte), m.flags = 0 ∧ Valid (disk m) ∧ StatesOk (disk m) file ∧ Whole (disk m) file ∧
    TableInside (disk m) file ∧ PlacesBelow (disk m) file ∧ LayeredInside file [] (source (disk m) file) m.mediaSize ∧ m.mediaSize = 2 ^ 32 + 1 ∧
    (media m file none)[2 ^ 32]? = some 2#8 ∧
    run40 m file none [.seek (.start (2 ^ 32)), .read 1] = .ok [(.seek (.start (2 ^ 32)), .position (2 ^ 32)), (.read 1, .bytes [0#8])] := by
  have hrun : run40 ⟨2 ^ 28, 0, 2 ^ 32 + 1, 512, 0, 144⟩ ([2#8] ++ List.replicate 135 0#8 ++ [6#8] ++ List.replicate 7 0#8) none
      [.seek (.start (2 ^ 32)), .read 1] = .ok [(.seek (.start (2 ^ 32)), .position (2 ^ 32)), (.read 1, .bytes [0#8])] := by decide +kernel
  obtain ⟨m, hm⟩ : ∃ m : Vhdx.Metadata, m = ⟨2 ^ 28, 0, 2 ^ 32 + 1, 512, 0, 144⟩ := ⟨_, rfl⟩
  obtain ⟨file, hfile⟩ : ∃ file : List Byte, file = [2#8] ++ List.replicate 135 0#8 ++ [6#8] ++ List.replicate 7 0#8 := ⟨_, rfl⟩
  rw [← hm, ← hfile] at hrun
  have hd : disk m = ⟨2 ^ 28, 512, 2 ^ 32 + 1, 0, 18, false⟩ := by rw [hm]; decide +kernel
  have hlen : file.length = 144 := by rw [hfile]; decide +kernel
  have h0 : file.getD 0 0#8 = 2#8 := by rw [hfile]; decide +kernel
  have hme : m.mediaSize = 2 ^ 32 + 1 := by rw [hm]
  have he : ∀ i, i < 18 → entry ⟨2 ^ 28, 512, 2 ^ 32 + 1, 0, 18, false⟩ file i = if i = 0 then 2 else if i = 17 then 6 else 0 := by rw [hfile]; decide +kernel
  have hbi : ∀ b, b < 17 → blockIndex ⟨2 ^ 28, 512, 2 ^ 32 + 1, 0, 18, false⟩ b = if b = 16 then 17 else b := by decide +kernel
  have hb : ∀ b, Used ⟨2 ^ 28, 512, 2 ^ 32 + 1, 0, 18, false⟩ b → b < 17 := by
    intro b hb
    have hb : b * 2 ^ 28 < 2 ^ 32 + 1 := hb
    omega
  have hs : ∀ b, b < 17 → state ⟨2 ^ 28, 512, 2 ^ 32 + 1, 0, 18, false⟩ file (blockIndex ⟨2 ^ 28, 512, 2 ^ 32 + 1, 0, 18, false⟩ b) =
      if b = 0 then 2 else if b = 16 then 6 else 0 := by
    intro b hb
    unfold state
    rw [hbi b hb]
    split
    next h => rw [h, he 17 (by omega)]; decide
    next h =>
      rw [he b (by omega), if_neg (show ¬ b = 17 by omega)]
      split <;> rfl
  have hp : ∀ i, i < 18 → place ⟨2 ^ 28, 512, 2 ^ 32 + 1, 0, 18, false⟩ file i = 0 := by
    intro i hi
    unfold place
    rw [he i hi]
    have : ∀ e, e < 8 → e / 2 ^ 20 * 2 ^ 20 = 0 := by intro e h; omega
    apply this
    split
    · decide
    · split <;> decide
  have hsrc : ∀ x, x < 2 ^ 32 + 1 → source ⟨2 ^ 28, 512, 2 ^ 32 + 1, 0, 18, false⟩ file x = if x = 2 ^ 32 then .file 0 else .zero := by
    intro x hx
    have hdiv : x / 2 ^ 28 < 17 := by omega
    unfold source
    simp only [Bool.false_eq_true, if_false]
    rw [hs _ hdiv]
    by_cases hx2 : x = 2 ^ 32
    · rw [if_pos hx2, if_pos (by rw [hx2]; decide), hp _ (by rw [hbi _ hdiv]; split <;> omega), hx2]
      rfl
    · rw [if_neg hx2, if_neg]
      split
      · omega
      · rw [if_neg (by omega)]; omega
  refine ⟨m, file, by rw [hm], ?_⟩
  rw [hd]
  refine ⟨⟨⟨28, by omega, by omega, rfl⟩, Or.inl rfl, by decide, by decide⟩, fun b hu => ?_, fun b hu h => ?_, ⟨by rw [hlen]; decide, fun b hu => ⟨?_, fun h => by cases h⟩⟩,
    fun i hi => ?_, fun x hx => ?_, hme, ?_, hrun⟩
  · simp only [Bool.false_eq_true, if_false]
    rw [hs b (hb b hu)]
    split
    · omega
    · split <;> omega
  · rw [hs b (hb b hu)] at h
    split at h
    · omega
    · split at h <;> omega
  · show _ < 18
    have := hb b hu
    rw [hbi b this]
    split <;> omega
  · rw [hp i hi]
    decide
  · rw [hme] at hx
    by_cases he : x = 2 ^ 32
    · rw [hsrc x hx, if_pos he]; simp only [hlen]; omega
    · rw [hsrc x hx, if_neg he]; trivial
  · unfold media
    rw [hme, hd, Lazy.layered_get (by omega), hsrc _ (by omega), if_pos rfl]
    show some (file.getD 0 0#8) = _
    rw [h0]

/-- Of a disk with a parent, a block that is not in the file should be read from the parent, but the code uses its bitmap, which need not exist: here
the entry with the bitmaps is 0 as well, and the signature of the file, `vhdxfile`, is taken for the bitmap. Reading the second sector never gives the
bytes of the parent. -/
theorem C40_violated_absent : ∃ (m : Vhdx.Metadata) (file parent : List Byte), m.flags = 2 ∧ Valid (disk m) ∧
    file.take 8 = [0x76#8, 0x68#8, 0x64#8, 0x78#8, 0x66#8, 0x69#8, 0x6c#8, 0x65#8] ∧
    state (disk m) file 0 = 0 ∧ m.mediaSize = 1024 ∧ TableInside (disk m) file ∧ PlacesBelow (disk m) file ∧
    LayeredInside file parent (source (disk m) file) m.mediaSize ∧ (media m file (some parent))[512]? = some 9#8 ∧
    ∀ tr, run40 m file (some parent) [.seek (.start 512), .read 1] = .ok tr → tr = [(.seek (.start 512), .position 512), (.read 1, .bytes [0#8])] := by
  obtain ⟨m, hm⟩ : ∃ m : Vhdx.Metadata, m = ⟨2 ^ 28, 2, 1024, 512, 1024, 136⟩ := ⟨_, rfl⟩
  obtain ⟨file, hfile⟩ : ∃ file : List Byte, file = [0x76#8, 0x68#8, 0x64#8, 0x78#8, 0x66#8, 0x69#8, 0x6c#8, 0x65#8] ++ List.replicate 65536 0#8 := ⟨_, rfl⟩
  have hd : disk m = ⟨2 ^ 28, 512, 1024, 1024, 17, true⟩ := by rw [hm]; decide +kernel
  have hlen : file.length = 65544 := by rw [hfile, List.length_append, List.length_replicate]; rfl
  have hz : ∀ i, 8 ≤ i → file.getD i 0#8 = 0#8 := by
    intro i hi
    rw [hfile, List.getD_eq_getElem?_getD, List.getElem?_append_right (by simpa using hi), List.getElem?_replicate]
    split <;> rfl
  have h0 : file.getD 0 0#8 = 0x76#8 := by rw [hfile]; rfl
  have he : ∀ i, i < 17 → entry ⟨2 ^ 28, 512, 1024, 1024, 17, true⟩ file i = 0 := by
    intro i hi
    unfold entry field bytesAt
    have : List.take 8 (List.drop (1024 + i * 8) file) = List.replicate 8 0#8 := by
      rw [hfile, List.drop_append, List.drop_of_length_le (by simp; omega), List.nil_append, List.drop_replicate, List.take_replicate]
      congr 1
      simp only [List.length_cons, List.length_nil]
      omega
    simp only
    rw [this]
    decide
  have hb : ∀ b, Used ⟨2 ^ 28, 512, 1024, 1024, 17, true⟩ b → b = 0 := by
    intro b hb
    have hb : b * 2 ^ 28 < 1024 := hb
    omega
  have hbi : blockIndex ⟨2 ^ 28, 512, 1024, 1024, 17, true⟩ 0 = 0 := by decide +kernel
  have hbm : bitmapIndex ⟨2 ^ 28, 512, 1024, 1024, 17, true⟩ 0 = 16 := by decide +kernel
  have hbz : bitmapSize ⟨2 ^ 28, 512, 1024, 1024, 17, true⟩ = 65536 := by decide +kernel
  have hbp : bitmapPlace ⟨2 ^ 28, 512, 1024, 1024, 17, true⟩ file 0 = 0 := by
    unfold bitmapPlace place
    rw [hbm, he 16 (by omega), Nat.zero_mod, Nat.zero_mul]
    rfl
  have hs : state ⟨2 ^ 28, 512, 1024, 1024, 17, true⟩ file 0 = 0 := by unfold state; rw [he 0 (by omega)]
  have hp : ∀ i, i < 17 → place ⟨2 ^ 28, 512, 1024, 1024, 17, true⟩ file i = 0 := by intro i hi; unfold place; rw [he i hi]
  have hbit : ∀ i, i < 8 → bit ⟨2 ^ 28, 512, 1024, 1024, 17, true⟩ file 0 i = (0x76#8 : Byte).getLsbD i := by
    intro i hi
    unfold bit
    rw [hbp, Nat.div_eq_of_lt hi, Nat.mod_eq_of_lt hi, Nat.add_zero, h0]
  have hsrc : ∀ x, x < 1024 → source ⟨2 ^ 28, 512, 1024, 1024, 17, true⟩ file x = .parent := by
    intro x hx
    unfold source
    simp only [if_true]
    rw [Nat.div_eq_of_lt (by omega), hbi, hs]
    simp
  have hcode : ∀ x, x < 1024 → Vhdx.sourceCode ⟨2 ^ 28, 512, 1024, 1024, 17, true⟩ file x = if x < 512 then .parent else .file x := by
    intro x hx
    unfold Vhdx.sourceCode
    simp only [if_true]
    rw [Nat.div_eq_of_lt (by omega : x < 2 ^ 28), Nat.mod_eq_of_lt (by omega : x < 2 ^ 28), hbi, hs, hbit _ (by omega), hp 0 (by omega), Nat.zero_add, if_neg (by decide)]
    rcases (show x / 512 = 0 ∨ x / 512 = 1 by omega) with h | h
    · rw [h, if_neg (by decide), if_pos (by omega)]
    · rw [h, if_pos (by decide), if_neg (by omega)]
  have hme : m.mediaSize = 1024 := by rw [hm]
  have hv : Valid (disk m) := by rw [hd]; exact ⟨⟨28, by omega, by omega, rfl⟩, Or.inl rfl, by decide, by decide⟩
  have hpl : PlacesBelow (disk m) file := by rw [hd]; intro i hi; rw [hp i hi]; decide
  refine ⟨m, file, List.replicate 1024 9#8, by rw [hm], hv, by rw [hfile, List.take_append_of_le_length (by decide)]; rfl, by rw [hd]; exact hs, hme, ?_, hpl, ?_, ?_, ?_⟩
  · rw [hd]
    refine ⟨by rw [hlen]; decide, fun b hu => ?_⟩
    rw [hb b hu, hbi, hbm, hbp, hbz, hlen]
    exact ⟨by decide, fun _ => ⟨by decide, by omega⟩⟩
  · intro x hx
    rw [hme] at hx
    rw [hd, hsrc x hx]
    simp only [List.length_replicate]
    exact hx
  · unfold media
    rw [hme, hd, Lazy.layered_get (by omega), hsrc _ (by omega)]
    show some ((List.replicate 1024 9#8).getD 512 0#8) = _
    rw [List.getD_eq_getElem?_getD, List.getElem?_replicate_of_lt (by omega)]
    rfl
  · intro tr h
    have h32 : m.tableSize < 2 ^ 32 := by rw [hm]; decide
    have hty : ∀ op ∈ ([.seek (.start 512), .read 1] : List StreamOp), typed op := by
      intro op hop
      simp only [List.mem_cons, List.not_mem_nil, or_false] at hop
      rcases hop with rfl | rfl
      · show 512 < 2 ^ 63; omega
      · trivial
    unfold run40 at h
    rw [opened hv h32, R.ok_bind] at h
    simp only at h
    have hok := Vhdx.stream_right (m := m) (file := file) hv (Or.inr (Or.inr (by rw [hm]; rfl))) hpl (by rw [hme]; decide) (parent := some (List.replicate 1024 9#8))
      (by
        intro x hx
        rw [hme] at hx
        have := hcode x hx
        rw [← hd] at this
        by_cases hlt : x < 512
        · rw [show Vhdx.diskOf m = disk m from rfl, this, if_pos hlt]
          simp only [Option.getD_some, List.length_replicate]
          exact hx
        · rw [show Vhdx.diskOf m = disk m from rfl, this, if_neg hlt]
          simp only [hlen]
          omega) _ hty tr h
    rw [hme] at hok
    have hC : ((layered file (List.replicate 1024 9#8) (Vhdx.sourceCode (Vhdx.diskOf m) file) 1024).drop 512).take 1 = [0#8] := by
      have h0 : (layered file (List.replicate 1024 9#8) (Vhdx.sourceCode (Vhdx.diskOf m) file) 1024)[512]? = some 0#8 := by
        rw [Lazy.layered_get (by omega), show Vhdx.diskOf m = disk m from rfl, hd, hcode 512 (by omega), if_neg (by omega)]
        exact congrArg some (hz 512 (by omega))
      have hlt := (List.getElem?_eq_some_iff.1 h0).1
      rw [List.drop_eq_getElem_cons hlt, (List.getElem?_eq_some_iff.1 h0).2]
      rfl
    rw [Lazy.trace_seek_read hok (run_ops _ _ _ h) (by omega)]
    show [_, (StreamOp.read 1, StreamOut.bytes (((layered file (List.replicate 1024 9#8) (Vhdx.sourceCode (Vhdx.diskOf m) file) 1024).drop 512).take 1))] = _
    rw [hC]

/-- The flags 3, of a disk with a parent whose blocks are to be left allocated, are taken for those of a disk without parent: a block that is not in the
file gives zeros, not the bytes of the parent. -/
theorem C40_violated_flags : ∃ (m : Vhdx.Metadata) (file parent : List Byte), m.flags = 3 ∧ Valid (disk m) ∧ state (disk m) file 0 = 0 ∧
    m.tableOffset + m.tableSize ≤ file.length ∧ m.mediaSize = 1 ∧ media m file (some parent) = [9#8] ∧
    run40 m file (some parent) [.read 1] = .ok [(.read 1, .bytes [0#8])] :=
  ⟨⟨2 ^ 28, 3, 1, 512, 0, 136⟩, List.replicate 136 0#8, [9#8], rfl, ⟨⟨28, by omega, by omega, rfl⟩, Or.inl rfl, by decide, by decide⟩, by decide +kernel, by decide +kernel, rfl,
    by decide +kernel, by decide +kernel⟩

end Keramics.Props.Vhdx
