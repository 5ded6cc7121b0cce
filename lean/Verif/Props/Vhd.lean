import Verif.Lemmas.Vhd

/-! # C39: reading VHD images -/

namespace Keramics.Props.Vhd
open Keramics.Spec Keramics.Spec.Vhd

/-- The contents of a disk. -/
def media (file : List Byte) (parent : Option (List Byte)) : List Byte := layered file (parent.getD []) (source file) (mediaSize file)

/-- Opening: exactly the supported disks are accepted, and nothing makes it panic. -/
theorem C39_open (file : List Byte) :
    Vhd.openImage file ≠ .panic ∧ ((∃ p, Vhd.openImage file = .ok p) ↔ Supported file) ∧
    ∀ image tree, Vhd.openImage file = .ok (image, tree) → image.mediaSize = mediaSize file := by
  have h := Vhd.openImage_good file
  refine ⟨h.ne_panic, ⟨fun ⟨p, hp⟩ => (h.of_ok hp).1, fun hs => ?_⟩, fun image tree hp => (h.of_ok hp).2.1⟩
  obtain ⟨p, hp, -⟩ := h.exists_ok hs
  exact ⟨p, hp⟩

/-- Every history of reads and seeks on a fixed disk gives the bytes at the start of the file. -/
theorem C39_fixed (file : List Byte) (hs : Supported file) (hle : mediaSize file + 512 ≤ file.length)
    (ops : List StreamOp) (hf : mediaSize file + seekBudget ops < 2 ^ 63) :
    ∃ image tree, Vhd.openImage file = .ok (image, tree) ∧ ∃ tr, Stream.run (Vhd.fixedStream image file) ⟨(), 0⟩ ops = .ok tr ∧
      tr.map Prod.fst = ops ∧ Trace true (file.take (mediaSize file)) (mediaSize file) 0 tr := by
  obtain ⟨⟨image, tree⟩, hok, -, hm, -⟩ := (Vhd.openImage_good file).exists_ok hs
  simp only at hm
  refine ⟨image, tree, hok, ?_⟩
  rw [← hm] at hf hle ⊢
  exact Vhd.fixed_run (by omega) ops hf

/-- Every history of reads and seeks on a dynamic or differential disk gives the bytes of the sectors in the file, and for
the others zeros or the bytes of the parent: for disks whose blocks are in the file with all their sectors or with none.
Missing: blocks of which only some sectors are in the file, see `C39_violated_bit_order`, `C39_violated_panic` and
`C39_violated_history`, and blocks whose size is not a multiple of 2 MiB, see `C39_violated_padding`. -/
theorem C39_contents_partial (file : List Byte) (parent : Option (List Byte)) (hs : Supported file) (h2 : diskType file ≠ 2) (hpad : NoPadding file)
    (hw : Whole file) (ht : TablesInside file) (hU : file.length < 2 ^ 63)
    (hin : LayeredInside file (parent.getD []) (source file) (mediaSize file)) (ops : List StreamOp)
    (hf : mediaSize file + seekBudget ops < 2 ^ 63) :
    ∃ image tree, Vhd.openImage file = .ok (image, tree) ∧ ∃ tr, Stream.run (Vhd.stream image file parent) ⟨tree, 0⟩ ops = .ok tr ∧
      tr.map Prod.fst = ops ∧ Trace true (media file parent) (mediaSize file) 0 tr := by
  obtain ⟨p, hok, -, -, hp⟩ := (Vhd.openImage_good file).exists_ok hs
  have := hp h2
  subst this
  exact ⟨_, _, hok, Vhd.stream_whole hs h2 hpad hw ht hU hin ops hf⟩

/-- Also with blocks of which only some sectors are in the file: a history that succeeds gives the right bytes, if the
bytes of the bitmaps are the same in both bit orders. Missing: that it succeeds, and other bitmaps. -/
theorem C39_sound_partial (file : List Byte) (parent : Option (List Byte)) (h2 : diskType file ≠ 2) (hpad : NoPadding file) (hsym : Symmetric file)
    (hm : mediaSize file < 2 ^ 63)
    (hin : LayeredInside file (parent.getD []) (source file) (mediaSize file)) (ops : List StreamOp) (hty : ∀ op ∈ ops, typed op)
    (image : Vhd.Image) (tree : Lazy.Tree) (hok : Vhd.openImage file = .ok (image, tree)) (tr)
    (h : Stream.run (Vhd.stream image file parent) ⟨tree, 0⟩ ops = .ok tr) :
    Trace true (media file parent) (mediaSize file) 0 tr := by
  obtain ⟨hs, -, hp⟩ := (Vhd.openImage_good file).of_ok hok
  have he := hp h2
  rw [Prod.mk.injEq] at he
  obtain ⟨rfl, rfl⟩ := he
  exact Vhd.stream_right hs h2 hpad hsym hm hin ops hty tr h

/-- The bitmaps are read with the lowest bit of a byte first, where the format has the highest bit first: every history
that succeeds gives the sectors in that order. -/
theorem C39_bit_order (file : List Byte) (parent : Option (List Byte)) (h2 : diskType file ≠ 2) (hpad : NoPadding file) (hfirst : FirstSame file)
    (hm : mediaSize file < 2 ^ 63)
    (hin : LayeredInside file (parent.getD []) (sourceLow file) (mediaSize file)) (ops : List StreamOp) (hty : ∀ op ∈ ops, typed op)
    (image : Vhd.Image) (tree : Lazy.Tree) (hok : Vhd.openImage file = .ok (image, tree)) (tr)
    (h : Stream.run (Vhd.stream image file parent) ⟨tree, 0⟩ ops = .ok tr) :
    Trace true (layered file (parent.getD []) (sourceLow file) (mediaSize file)) (mediaSize file) 0 tr := by
  obtain ⟨hs, -, hp⟩ := (Vhd.openImage_good file).of_ok hok
  have he := hp h2
  rw [Prod.mk.injEq] at he
  obtain ⟨rfl, rfl⟩ := he
  exact Vhd.stream_low hs h2 hpad hfirst hm hin ops hty tr h

/-! ## Examples -/

/-- A dynamic (`type` 3) or differential (`type` 4) disk: the media size as 4 bytes, the number of blocks, the block size as 4 bytes and
what is from offset 1536, where the block allocation table is. -/
def disk (type : Byte) (media : List Byte) (blocks : Byte) (blockSize : List Byte) (rest : List Byte) : List Byte :=
  List.replicate 512 0#8 ++
  ([0x63#8, 0x78#8, 0x73#8, 0x70#8, 0x61#8, 0x72#8, 0x73#8, 0x65#8] ++ List.replicate 8 0xff#8 ++ [0#8, 0#8, 0#8, 0#8, 0#8, 0#8, 6#8, 0#8] ++
    [0#8, 1#8, 0#8, 0#8] ++ [0#8, 0#8, 0#8, blocks] ++ blockSize ++ List.replicate 988 0#8) ++ rest ++
  ([0x63#8, 0x6f#8, 0x6e#8, 0x65#8, 0x63#8, 0x74#8, 0x69#8, 0x78#8] ++ List.replicate 4 0#8 ++ [0#8, 1#8, 0#8, 0#8] ++ [0#8, 0#8, 0#8, 0#8, 0#8, 0#8, 2#8, 0#8] ++
    List.replicate 20 0#8 ++ media ++ List.replicate 12 0#8 ++ [0#8, 0#8, 0#8, type] ++ List.replicate 448 0#8)

def mib2 : List Byte := [0#8, 0x20#8, 0#8, 0#8]

def none39 : List Byte := [0xff#8, 0xff#8, 0xff#8, 0xff#8]

theorem supported39 {file : List Byte} (h : 512 ≤ file.length ∧
    bytesAt file (footer file) 8 = [0x63#8, 0x6f#8, 0x6e#8, 0x65#8, 0x63#8, 0x74#8, 0x69#8, 0x78#8] ∧ fieldBe file (footer file + 12) 4 = 65536 ∧
    (diskType file = 3 ∨ diskType file = 4) ∧ 512 ≤ nextOffset file ∧ nextOffset file + 1024 ≤ file.length ∧
    bytesAt file (nextOffset file) 8 = [0x63#8, 0x78#8, 0x73#8, 0x70#8, 0x61#8, 0x72#8, 0x73#8, 0x65#8] ∧ fieldBe file (nextOffset file + 24) 4 = 65536 ∧
    fieldBe file (nextOffset file + 8) 8 = 2 ^ 64 - 1 ∧ blockSize file ≠ 0 ∧ mediaSize file ≤ blocks file * blockSize file) : Supported file ∧ diskType file ≠ 2 := by
  obtain ⟨h1, h2, h3, h4, h5, h6, h7, h8, h9, h10, h11⟩ := h
  have ht : diskType file ≠ 2 := by omega
  exact ⟨⟨⟨h1, h2, h3, by omega, by rw [if_neg ht]; exact h5⟩, fun _ => ⟨h6, h7, h8, h9, h10, h11⟩⟩, ht⟩

private theorem source_absent {file : List Byte} {b x : Nat} (h : x / blockSize file = b) (he : entry file b = 0xffffffff) : source file x = absent file := by
  unfold source
  simp only
  rw [h, if_pos he]

private theorem source_some {file : List Byte} {b x o s : Nat} (h : x / blockSize file = b) (he : entry file b = s) (hs : s ≠ 0xffffffff) (ho : x % blockSize file = o) :
    source file x = if bit file b (o / 512) then .file (s * 512 + bitmapSize file + o) else absent file := by
  unfold source
  simp only
  rw [h, if_neg (by rw [he]; exact hs), he, ho]

/-- Two blocks: the first is not in the file, the second is; the media ends after its first sector. -/
private theorem file39 : ∃ file : List Byte, mediaSize file = 2097664 ∧ blockSize file = 2097152 ∧ blocks file = 2 ∧ tableOffset file = 1536 ∧ diskType file = 3 ∧
    entry file 0 = 0xffffffff ∧ entry file 1 = 4 ∧ bytesAt file 2048 512 = List.replicate 512 0xff#8 ∧ file.length = 3584 ∧ Supported file := by
  refine ⟨disk 3#8 [0#8, 0x20#8, 2#8, 0#8] 2#8 mib2 (none39 ++ [0#8, 0#8, 0#8, 4#8] ++ List.replicate 504 0#8 ++ List.replicate 512 0xff#8 ++ List.replicate 512 7#8),
    by decide +kernel, by decide +kernel, by decide +kernel, by decide +kernel, by decide +kernel, by decide +kernel, by decide +kernel, by decide +kernel,
    by decide +kernel, ?_⟩
  exact (supported39 (by decide +kernel)).1

private theorem byte_of {file : List Byte} {v : Byte} {n p i : Nat} (h : bytesAt file p n = List.replicate n v) (hi : i < n) :
    file.getD (p + i) 0#8 = v := by
  rw [← Vhd.bytesAt_getD (n := n) hi, h, List.getD_eq_getElem?_getD, List.getElem?_replicate_of_lt hi]
  rfl

private theorem byteFF : ∀ j, j < 8 → (0xff#8 : Byte).getMsbD j = true := by decide

/-- The hypotheses of `C39_contents_partial` are met. -/
example : ∃ file : List Byte, Supported file ∧ diskType file ≠ 2 ∧ NoPadding file ∧ Whole file ∧ TablesInside file ∧ mediaSize file = 2097664 ∧
    LayeredInside file [] (source file) (mediaSize file) ∧ source file 0 = .zero ∧ source file 2097200 = .file 2608 := by
  obtain ⟨file, h1, h2, h3, h4, h5, h6, h7, h8, h9, hs⟩ := file39
  have hbits : ∀ {i : Nat}, i < 4096 → bit file 1 i = true := by
    intro i hi
    unfold bit
    rw [h7, byte_of (p := 2048) h8 (by omega)]
    exact byteFF _ (by omega)
  have hb : bitmapSize file = 512 := by unfold bitmapSize; rw [h2]
  have habs : absent file = .zero := by unfold absent; rw [if_pos h5]
  refine ⟨file, hs, by omega, ⟨1, by rw [h2]⟩, ?_, ⟨by rw [h4, h3, h9]; omega, ?_⟩, h1, ?_, ?_, ?_⟩
  · intro b hb he i hi
    rw [h3] at hb
    rw [h2] at hi
    rcases (show b = 0 ∨ b = 1 by omega) with rfl | rfl
    · exact absurd h6 he
    · rw [hbits (by omega), hbits (by omega)]
  · intro b hb' he
    rw [h3] at hb'
    rcases (show b = 0 ∨ b = 1 by omega) with rfl | rfl
    · exact absurd h6 he
    · rw [h7, h9, hb]; omega
  · intro x hx
    rw [h1] at hx
    rcases Nat.lt_or_ge x 2097152 with h | h
    · rw [source_absent (b := 0) (by rw [h2]; omega) h6, habs]; trivial
    · rw [source_some (b := 1) (by rw [h2]; omega) h7 (by omega) rfl, h2, hbits (by omega), if_pos rfl, hb]
      simp only
      rw [h9]
      omega
  · rw [source_absent (b := 0) (by rw [h2]) h6, habs]
  · rw [source_some (b := 1) (by rw [h2]) h7 (by omega) rfl, h2, hbits (by omega), if_pos rfl, hb]

/-- A fixed disk of 4 bytes. -/
private def fixed39 : List Byte := [1#8, 2#8, 3#8, 4#8] ++
  ([0x63#8, 0x6f#8, 0x6e#8, 0x65#8, 0x63#8, 0x74#8, 0x69#8, 0x78#8] ++ List.replicate 4 0#8 ++ [0#8, 1#8, 0#8, 0#8] ++ List.replicate 8 0xff#8 ++
    List.replicate 16 0#8 ++ [0#8, 0#8, 0#8, 0#8, 0#8, 0#8, 0#8, 4#8] ++ List.replicate 12 0#8 ++ [0#8, 0#8, 0#8, 2#8] ++ List.replicate 448 0#8)

/-- The hypotheses of `C39_fixed` are met. -/
example : Supported fixed39 ∧ mediaSize fixed39 + 512 ≤ fixed39.length := by
  have h2 : diskType fixed39 = 2 := by decide +kernel
  exact ⟨⟨⟨by decide +kernel, by decide +kernel, by decide +kernel, Or.inl h2, by rw [if_pos h2]; decide +kernel⟩, fun h => absurd h2 h⟩, by decide +kernel⟩

/-- Open a disk and run a history. -/
def run39 (file : List Byte) (parent : Option (List Byte)) (ops : List StreamOp) : R (List (StreamOp × StreamOut)) := do
  let (image, tree) ← Vhd.openImage file
  Stream.run (Vhd.stream image file parent) ⟨tree, 0⟩ ops

/-- A disk of two blocks, the first with the first byte of its bitmap, the second not in the file; the media are the first two sectors. -/
private def mixed39 (v : Byte) : List Byte := disk 3#8 [0#8, 0#8, 4#8, 0#8] 2#8 mib2
  ([0#8, 0#8, 0#8, 4#8] ++ none39 ++ List.replicate 504 0#8 ++ [v] ++ List.replicate 511 0#8 ++ List.replicate 1024 7#8)

private theorem mixed39_facts : ∃ file : List Byte, mediaSize file = 1024 ∧ blockSize file = 2097152 ∧ blocks file = 2 ∧
    tableOffset file = 1536 ∧ diskType file = 3 ∧ entry file 0 = 4 ∧ entry file 1 = 0xffffffff ∧
    file.getD 2048 0#8 = 0x40#8 ∧ file.length = 4096 ∧ file.getD (2560 + 512) 0#8 = 7#8 ∧ Supported file :=
  ⟨mixed39 0x40#8, by decide +kernel, by decide +kernel, by decide +kernel, by decide +kernel, by decide +kernel, by decide +kernel, by decide +kernel, by decide +kernel,
    by decide +kernel, by decide +kernel, (supported39 (by decide +kernel)).1⟩

private theorem inside39 {f : Nat → Source} {file : List Byte} {size : Nat} {g : Nat → Bool} (h : ∀ x, x < size → f x = if g x then .file (2560 + x) else .zero)
    (hl : 2560 + size ≤ file.length) : LayeredInside file [] f size := by
  intro x hx
  rw [h x hx]
  cases g x
  · trivial
  · simp only [if_true]
    omega

/-- The first byte of the bitmap of the first block is 0x40, so that its second sector is in the file. Reading from it never gives
its bytes. -/
theorem C39_violated_bit_order : ∃ file : List Byte, Supported file ∧ diskType file = 3 ∧ NoPadding file ∧ TablesInside file ∧
    LayeredInside file [] (source file) (mediaSize file) ∧ (media file none)[512]? = some 7#8 ∧
    ∀ tr, run39 file none [.seek (.start 512), .read 1] = .ok tr → tr = [(.seek (.start 512), .position 512), (.read 1, .bytes [0#8])] := by
  obtain ⟨file, h1, h2, h3, h4, h5, h6, h7, h8, h9, h10, hs⟩ := mixed39_facts
  have hb : bitmapSize file = 512 := by unfold bitmapSize; rw [h2]
  have habs : absent file = .zero := by unfold absent; rw [if_pos h5]
  have hpad : NoPadding file := ⟨1, by rw [h2]⟩
  have hsrc : ∀ x, x < 1024 → source file x = if (0x40#8 : Byte).getMsbD (x / 512) then .file (2560 + x) else .zero := by
    intro x hx
    rw [source_some (b := 0) (by rw [h2]; omega) h6 (by omega) (o := x) (by rw [h2]; omega), hb, habs]
    unfold bit
    rw [h6, show x / 512 / 8 = 0 by omega, show x / 512 % 8 = x / 512 by omega, h8]
  have hlow : ∀ x, x < 1024 → sourceLow file x = if (0x40#8 : Byte).getLsbD (x / 512) then .file (2560 + x) else .zero := by
    intro x hx
    unfold sourceLow
    simp only [h2]
    rw [Nat.div_eq_of_lt (by omega), if_neg (by rw [h6]; omega), Nat.mod_eq_of_lt (by omega), show x / 512 / 8 = 0 by omega, show x / 512 % 8 = x / 512 by omega,
      h6, hb, habs, h8]
  refine ⟨file, hs, h5, hpad, ⟨by rw [h3, h4, h9]; omega, ?_⟩, ?_, ?_, ?_⟩
  · intro b hlt he
    rw [h3] at hlt
    rcases (show b = 0 ∨ b = 1 by omega) with rfl | rfl
    · rw [h6, hb, h9]; omega
    · exact absurd h7 he
  · rw [h1]
    exact inside39 hsrc (by rw [h9]; omega)
  · unfold media layered
    rw [List.getElem?_map, List.getElem?_range (by rw [h1]; omega)]
    have : (0x40#8 : Byte).getMsbD (512 / 512) = true := by decide
    simp only [Option.map_some, hsrc 512 (by omega), this, if_true, Source.byte]
    rw [h10]
  · intro tr h
    unfold run39 at h
    obtain ⟨⟨image, tree⟩, hok, h⟩ := R.bind_eq_ok.1 h
    have hty : ∀ op ∈ ([.seek (.start 512), .read 1] : List StreamOp), typed op := by
      intro op hop
      simp only [List.mem_cons, List.not_mem_nil, or_false] at hop
      rcases hop with rfl | rfl
      · show 512 < 2 ^ 63; omega
      · trivial
    have htr := C39_bit_order _ none (show diskType file ≠ 2 by omega) hpad (by
      intro b hlt he
      rw [h3] at hlt
      rcases (show b = 0 ∨ b = 1 by omega) with rfl | rfl
      · rw [h6, h8]; decide
      · exact absurd h7 he) (by rw [h1]; omega) (by rw [h1]; exact inside39 hlow (by rw [h9]; omega)) _ hty image tree hok tr h
    have hops := run_ops _ _ _ h
    have hC : ((layered file [] (sourceLow file) 1024).drop 512).take 1 = [0#8] := by
      have h0 : (layered file [] (sourceLow file) 1024)[512]? = some 0#8 := by
        unfold layered
        rw [List.getElem?_map, List.getElem?_range (by omega)]
        have : (0x40#8 : Byte).getLsbD (512 / 512) = false := by decide
        simp [hlow 512 (by omega), Source.byte]
      have hlt := (List.getElem?_eq_some_iff.1 h0).1
      rw [List.drop_eq_getElem_cons hlt, (List.getElem?_eq_some_iff.1 h0).2]
      rfl
    rw [h1] at htr
    rw [Lazy.trace_seek_read htr hops (by omega)]
    show [_, (StreamOp.read 1, StreamOut.bytes (((layered file [] (sourceLow file) 1024).drop 512).take 1))] = _
    rw [hC]

/-- The part of the tree a bitmap is for, with the ranges already known. -/
private def filled (image : Vhd.Image) (file : List Byte) (known sector : Nat) (ranges : List (Nat × Bool)) (block x : Nat) (tree : Lazy.Tree) : R Lazy.Tree :=
  if block % 2 ^ 32 = known then do
    let media ← R.mulU 64 block image.blockSize
    SectorBitmap.insertRanges (Vhd.unset image) ranges media (sector * 512 + image.bitmapSize) tree
  else Vhd.fill image file block x tree

private theorem fill_filled {image : Vhd.Image} {file : List Byte} {known sector : Nat} {ranges : List (Nat × Bool)} (h : Vhd.readEntry image file known = .ok sector)
    (hs : sector ≠ 4294967295) (hr : Vhd.readBitmap image file (sector * 512) = .ok ranges) :
    Vhd.fill image file = filled image file known sector ranges := by
  funext b x t
  unfold filled
  split
  next e =>
    unfold Vhd.fill
    rw [e, h, R.ok_bind, if_pos hs]
    unfold Vhd.fillBitmap
    simp only
    rw [hr, R.ok_bind]
  next => rfl

private theorem readBitmap_of {image : Vhd.Image} {file data : List Byte} {offset : Nat} {first : Byte} (h : readExactAt file offset image.bitmapSize = .ok (first :: data)) :
    Vhd.readBitmap image file offset = .ok (SectorBitmap.ranges 512 (first.getLsbD 7) (SectorBitmap.byteBits first ++ SectorBitmap.bits data)) := by
  unfold Vhd.readBitmap
  rw [h, R.ok_bind]
  rfl

private theorem opened39 {file : List Byte} (hs : Supported file) (h2 : diskType file ≠ 2) {image : Vhd.Image} {n b : Nat} (hi : Vhd.imageOf file = image) (hn : blocks file = n)
    (hb : blockSize file = b) : Vhd.openImage file = .ok (image, BlockTree.new (n * b) (b / 512) 512) := by
  obtain ⟨p, hok, -, -, hp⟩ := (Vhd.openImage_good file).exists_ok hs
  rw [hok, hp h2, hi]
  unfold Vhd.treeOf
  rw [hn, hb]

private def panic39 : List Byte :=
  disk 3#8 [0#8, 0#8, 2#8, 0#8] 1#8 mib2 ([0#8, 0#8, 0#8, 4#8] ++ List.replicate 508 0#8 ++ [0x80#8] ++ List.replicate 511 0#8 ++ List.replicate 512 7#8)

/-- A disk of one block: the highest bit of the first byte of its bitmap is not its lowest bit, and reading panics. -/
theorem C39_violated_panic : ∃ file : List Byte, Supported file ∧ diskType file = 3 ∧ NoPadding file ∧ 1 ≤ mediaSize file ∧
    run39 file none [.read 1] = .panic := by
  have hs := supported39 (file := panic39) (by decide +kernel)
  refine ⟨panic39, hs.1, by decide +kernel, ⟨1, by decide +kernel⟩, by decide +kernel, ?_⟩
  have hok := opened39 (image := ⟨.dynamic, 512, 1536, 1, 2097152, 512⟩) (n := 1) (b := 2097152) hs.1 hs.2 (by decide +kernel) (by decide +kernel) (by decide +kernel)
  have hr : Vhd.readBitmap ⟨.dynamic, 512, 1536, 1, 2097152, 512⟩ panic39 (4 * 512) = .ok ((0, true) :: (3584, false) ::
      SectorBitmap.ranges 512 true (true :: SectorBitmap.bits (List.replicate 511 0#8))) := by
    rw [readBitmap_of (first := 0x80#8) (data := List.replicate 511 0#8) (by decide +kernel)]
    have h1 := SectorBitmap.ranges_next (perBit := 512) (n := 0) true (List.replicate 6 false ++ true :: SectorBitmap.bits (List.replicate 511 0#8))
    have h2 := SectorBitmap.ranges_next (perBit := 512) (n := 7) false (SectorBitmap.bits (List.replicate 511 0#8))
    exact congrArg R.ok (h1.trans (congrArg _ h2))
  have hfill := fill_filled (image := ⟨.dynamic, 512, 1536, 1, 2097152, 512⟩) (file := panic39) (known := 0) (sector := 4) (by decide +kernel) (by omega) hr
  unfold run39 Vhd.stream
  rw [hok, R.ok_bind]
  simp only
  rw [hfill]
  decide +kernel

private theorem bits_append (a b : List Byte) : SectorBitmap.bits (a ++ b) = SectorBitmap.bits a ++ SectorBitmap.bits b := List.flatMap_append

private theorem bits_zero (n : Nat) : SectorBitmap.bits (List.replicate n 0#8) = List.replicate (8 * n) false := by
  induction n with
  | zero => rfl
  | succ n ih =>
    have h : SectorBitmap.bits (List.replicate (n + 1) 0#8) = List.replicate 8 false ++ SectorBitmap.bits (List.replicate n 0#8) := rfl
    rw [h, ih, List.replicate_append_replicate]
    congr 1
    omega

private def padding39 : List Byte := disk 3#8 [0#8, 0#8, 0x80#8, 1#8] 64#8 [0#8, 0#8, 0x80#8, 0#8]
  ([0#8, 0#8, 0#8, 4#8, 0#8, 0#8, 0#8, 5#8] ++ List.replicate 504 0xff#8 ++ (List.replicate 8 0xff#8 ++ List.replicate 504 0#8) ++
  (List.replicate 8 0xff#8 ++ List.replicate 504 0#8) ++ List.replicate 512 7#8)

/-- A disk with blocks of 32 KiB: the padding of the bitmap of the first block makes the second, that is in the file, read as zeros.
The file is shorter than it should be to keep the example small: the bytes of the second block are those of its first sector. -/
theorem C39_violated_padding : ∃ file : List Byte, Supported file ∧ diskType file = 3 ∧ blockSize file = 32768 ∧ mediaSize file = 32769 ∧
    source file 0 = .file 2560 ∧ source file 32768 = .file 3072 ∧ file.getD 3072 0#8 = 7#8 ∧
    run39 file none [.read 0, .read 1, .seek (.start 32768), .read 1] =
      .ok [(.read 0, .bytes []), (.read 1, .bytes [0xff#8]), (.seek (.start 32768), .position 32768), (.read 1, .bytes [0#8])] := by
  have hs := supported39 (file := padding39) (by decide +kernel)
  refine ⟨padding39, hs.1, by decide +kernel, by decide +kernel, by decide +kernel, by decide +kernel, by decide +kernel, by decide +kernel, ?_⟩
  have hok := opened39 (image := ⟨.dynamic, 32769, 1536, 64, 32768, 512⟩) (n := 64) (b := 32768) hs.1 hs.2 (by decide +kernel) (by decide +kernel) (by decide +kernel)
  have hr : Vhd.readBitmap ⟨.dynamic, 32769, 1536, 64, 32768, 512⟩ padding39 (4 * 512) = .ok [(32768, true), (2064384, false)] := by
    rw [readBitmap_of (first := 0xff#8) (data := List.replicate 7 0xff#8 ++ List.replicate 504 0#8) (by decide +kernel)]
    have h1 := SectorBitmap.ranges_next (perBit := 512) (n := 64) true (List.replicate 4031 false)
    have h2 := SectorBitmap.ranges_replicate (perBit := 512) (n := 4032) false
    have h3 : SectorBitmap.byteBits 0xff#8 ++ SectorBitmap.bits (List.replicate 7 0xff#8 ++ List.replicate 504 0#8) =
        List.replicate 64 true ++ (!true) :: List.replicate 4031 false := by
      rw [bits_append, bits_zero, ← List.append_assoc]
      have h4 : SectorBitmap.byteBits 0xff#8 ++ SectorBitmap.bits (List.replicate 7 0xff#8) = List.replicate 64 true := by decide +kernel
      rw [h4]
      rfl
    rw [h3]
    exact congrArg R.ok (h1.trans (congrArg _ h2))
  have hfill := fill_filled (image := ⟨.dynamic, 32769, 1536, 64, 32768, 512⟩) (file := padding39) (known := 0) (sector := 4) (by decide +kernel) (by omega) hr
  unfold run39 Vhd.stream
  rw [hok, R.ok_bind]
  simp only
  rw [hfill]
  decide +kernel

private def mixed39b : List Byte := disk 3#8 [0#8, 0x20#8, 0#8, 1#8] 2#8 mib2
  (none39 ++ [0#8, 0#8, 0#8, 4#8] ++ List.replicate 504 0#8 ++ [0x81#8] ++ List.replicate 511 0#8 ++ List.replicate 512 7#8)

/-- After a block that is not in the file has been read, reading a block of which some of the sectors are in the file fails. -/
theorem C39_violated_history : ∃ file : List Byte, Supported file ∧ diskType file = 3 ∧ NoPadding file ∧ mediaSize file = 2097153 ∧
    source file 0 = .zero ∧ source file 2097152 = .file 2560 ∧ file.getD 2560 0#8 = 7#8 ∧
    run39 file none [.read 1, .seek (.start 2097152), .read 1] = .err := by
  have hs := supported39 (file := mixed39b) (by decide +kernel)
  refine ⟨mixed39b, hs.1, by decide +kernel, ⟨1, by decide +kernel⟩, by decide +kernel, by decide +kernel, by decide +kernel, by decide +kernel, ?_⟩
  have hok := opened39 (image := ⟨.dynamic, 2097153, 1536, 2, 2097152, 512⟩) (n := 2) (b := 2097152) hs.1 hs.2 (by decide +kernel) (by decide +kernel) (by decide +kernel)
  have hr : Vhd.readBitmap ⟨.dynamic, 2097153, 1536, 2, 2097152, 512⟩ mixed39b (4 * 512) = .ok ((512, true) ::
      SectorBitmap.ranges 512 false (false :: (List.replicate 5 false ++ true :: SectorBitmap.bits (List.replicate 511 0#8)))) := by
    rw [readBitmap_of (first := 0x81#8) (data := List.replicate 511 0#8) (by decide +kernel)]
    exact congrArg R.ok (SectorBitmap.ranges_next (perBit := 512) (n := 1) true (List.replicate 5 false ++ true :: SectorBitmap.bits (List.replicate 511 0#8)))
  have hfill := fill_filled (image := ⟨.dynamic, 2097153, 1536, 2, 2097152, 512⟩) (file := mixed39b) (known := 1) (sector := 4) (by decide +kernel) (by omega) hr
  unfold run39 Vhd.stream
  rw [hok, R.ok_bind]
  simp only
  rw [hfill]
  decide +kernel

end Keramics.Props.Vhd
