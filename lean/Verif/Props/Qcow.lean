import Verif.Lemmas.Qcow

/-!
# C38: reading QCOW images

The images of these theorems have a supported header, a media size below 2^63 and a level 1 table for all of the media.
-/

namespace Keramics.Props
open Keramics.Spec Keramics.Spec.Qcow

/-- Opening: exactly the supported headers are accepted, and nothing makes it panic except 63 cluster bits in version 2
and 3 and a media size of 2^63 or more. -/
theorem C38_open (file : List Byte) (hm : mediaSize file < 2 ^ 63) (hc : version file = 1 ∨ clusterBits file ≠ 63) :
    Qcow.openImage file ≠ .panic ∧ ((∃ p, Qcow.openImage file = .ok p) ↔ Supported file) ∧
    ∀ image tree, Qcow.openImage file = .ok (image, tree) → image.mediaSize = mediaSize file ∧ image.backing = hasBacking file := by
  have h := Qcow.openImage_good file hm hc
  refine ⟨h.ne_panic, ⟨fun ⟨p, hp⟩ => (h.of_ok hp).2, fun hs => ?_⟩, fun image tree hp => ?_⟩
  · obtain ⟨p, hp, -⟩ := h.exists_ok hs
    exact ⟨p, hp⟩
  · have := (h.of_ok hp).1
    rw [Prod.mk.injEq] at this
    rw [this.1]
    exact ⟨rfl, rfl⟩

theorem not63 {file : List Byte} (h : Supported file) : version file = 1 ∨ clusterBits file ≠ 63 := by
  have h1 := h.bits
  by_cases hv : version file = 1
  · exact Or.inl hv
  · right
    unfold l2Bits at h1
    rw [if_neg hv] at h1
    omega

/-- Every history of reads and seeks on an image without compressed clusters gives the bytes of the clusters, and for
what is not allocated zeros or the bytes of the backing file: for images of which every part has a level 2 table.
Missing: images with level 1 entries without a level 2 table, see `C38_violated_backing`, `C38_violated_empty` and
`C38_violated_history`, the zero flag of version 3, see `C38_violated_zero_flag`, and compressed clusters, see
`C38_violated_compressed`. -/
theorem C38_contents_partial (file : List Byte) (backing : Option (List Byte)) (hs : Supported file) (hm : mediaSize file < 2 ^ 63)
    (hc : Covered file) (hp : Plain file) (hfull : Full file) (ht : TablesInside file) (hU : file.length < 2 ^ 63) (h2 : l2Bits file < 32)
    (hin : LayeredInside file (backing.getD []) (source file) (mediaSize file)) (ops : List StreamOp)
    (hf : mediaSize file + seekBudget ops < 2 ^ 63) :
    ∃ image tree, Qcow.openImage file = .ok (image, tree) ∧ ∃ tr, Stream.run (Qcow.stream image file backing) ⟨tree, 0⟩ ops = .ok tr ∧
      tr.map Prod.fst = ops ∧
      Trace true (layered file (backing.getD []) (source file) (mediaSize file)) (mediaSize file) 0 tr := by
  obtain ⟨p, hok, rfl, -⟩ := (Qcow.openImage_good file hm (not63 hs)).exists_ok hs
  exact ⟨_, _, hok, Qcow.stream_full ⟨hs, hm, hc⟩ hp hfull ht hU h2 hin ops hf⟩

/-- Also with level 1 entries without a level 2 table: if there is no backing file, a history that succeeds gives the
right bytes, whatever the history was. Missing: that it succeeds. -/
theorem C38_sound_partial (file : List Byte) (backing : Option (List Byte)) (hm : mediaSize file < 2 ^ 63)
    (hc : Covered file) (hp : Plain file) (hfull : hasBacking file = true → Full file)
    (hin : LayeredInside file (backing.getD []) (source file) (mediaSize file)) (ops : List StreamOp) (hty : ∀ op ∈ ops, typed op)
    (image : Qcow.Image) (tree : Lazy.Tree) (hok : Qcow.openImage file = .ok (image, tree)) (tr)
    (h : Stream.run (Qcow.stream image file backing) ⟨tree, 0⟩ ops = .ok tr) (h63 : version file = 1 ∨ clusterBits file ≠ 63) :
    Trace true (layered file (backing.getD []) (source file) (mediaSize file)) (mediaSize file) 0 tr := by
  obtain ⟨he, hs⟩ := (Qcow.openImage_good file hm h63).of_ok hok
  rw [Prod.mk.injEq] at he
  obtain ⟨rfl, rfl⟩ := he
  exact Qcow.stream_right ⟨hs, hm, hc⟩ hp hfull hin ops hty tr h

/-! ## Examples -/

/-- A version 1 image: clusters of 8 bytes, level 2 tables of 2 entries, the level 1 table directly after the header. The
other parameters are the size of the name of the backing file (at offset 100), the media size and what follows the header. -/
def image1 (name media : Byte) (rest : List Byte) : List Byte :=
  [0x51#8, 0x46#8, 0x49#8, 0xfb#8, 0#8, 0#8, 0#8, 1#8] ++ [0#8, 0#8, 0#8, 0#8, 0#8, 0#8, 0#8, if name = 0#8 then 0#8 else 100#8] ++ [0#8, 0#8, 0#8, name] ++
  List.replicate 4 0#8 ++ List.replicate 7 0#8 ++ [media] ++ [3#8, 1#8, 0#8, 0#8] ++ List.replicate 4 0#8 ++
  List.replicate 7 0#8 ++ [112#8] ++ List.replicate 64 0#8 ++ rest

/-- A table entry with a small place. -/
def entry1 (place : Byte) : List Byte := List.replicate 7 0#8 ++ [place]

instance (file : List Byte) (e : Nat) : Decidable (Clean file e) := inferInstanceAs (Decidable (_ → _))
instance (file : List Byte) (e : Nat) : Decidable (Uncompressed file e) := by unfold Uncompressed; infer_instance

theorem supported1 {file : List Byte} (h : 112 ≤ file.length ∧ bytesAt file 0 4 = [0x51#8, 0x46#8, 0x49#8, 0xfb#8] ∧ version file = 1 ∧ clusterBits file = 3 ∧
    l2Bits file = 1 ∧ l1Entries file < 2 ^ 32 ∧ (hasBacking file = true → headerSize file ≤ fieldBe file 8 8 ∧ fieldBe file 16 4 ≤ 65536 ∧
    fieldBe file 8 8 + fieldBe file 16 4 ≤ file.length) ∧ fieldBe file 36 4 = 0) : Supported file := by
  obtain ⟨h1, h2, h3, h4, h5, h6, h7, h8⟩ := h
  exact ⟨h1, h2, Or.inl h3, ⟨by omega, fun h => absurd h3 h⟩, by omega, by omega, fun h => by omega, fun h => by omega, fun _ => h6, h7, by rw [if_pos h3]; exact h8⟩

/-- Two level 2 tables, one allocated cluster in each; the rest is in the backing file. -/
private def file38 : List Byte := image1 1#8 32#8 (entry1 128#8 ++ entry1 144#8 ++ (entry1 160#8 ++ entry1 0#8) ++ (entry1 0#8 ++ entry1 168#8) ++
  [1#8, 2#8, 3#8, 4#8, 5#8, 6#8, 7#8, 8#8] ++ [11#8, 12#8, 13#8, 14#8, 15#8, 16#8, 17#8, 18#8])

private def backing38 : List Byte := List.replicate 32 9#8

private theorem inside_of {file parent : List Byte} {size : Nat} (h : ∀ x, x < size → (match source file x with
    | .file offset => decide (offset < file.length)
    | .parent => decide (x < parent.length)
    | .zero => true) = true) : LayeredInside file parent (source file) size := by
  intro x hx
  have := h x hx
  split at this <;> simp_all

/-- The hypotheses of `C38_contents_partial` are met. -/
example : Supported file38 ∧ mediaSize file38 < 2 ^ 63 ∧ Covered file38 ∧ Plain file38 ∧ Full file38 ∧ TablesInside file38 ∧ l2Bits file38 < 32 ∧
    LayeredInside file38 backing38 (source file38) (mediaSize file38) ∧
    layered file38 backing38 (source file38) (mediaSize file38) =
      [1#8, 2#8, 3#8, 4#8, 5#8, 6#8, 7#8, 8#8] ++ List.replicate 16 9#8 ++ [11#8, 12#8, 13#8, 14#8, 15#8, 16#8, 17#8, 18#8] := by
  have hm : mediaSize file38 = 32 := by decide +kernel
  refine ⟨supported1 (by decide +kernel), by rw [hm]; omega, by unfold Covered; decide +kernel, ?_, ?_, ?_, by decide +kernel, ?_, by decide +kernel⟩
  · unfold Plain; rw [hm]; decide +kernel
  · unfold Full; rw [hm]; decide +kernel
  · unfold TablesInside; rw [hm]; decide +kernel
  · rw [hm]; exact inside_of (by decide +kernel)

/-- Open an image and run a history. -/
def run38 (file : List Byte) (backing : Option (List Byte)) (ops : List StreamOp) : R (List (StreamOp × StreamOut)) := do
  let (image, tree) ← Qcow.openImage file
  Stream.run (Qcow.stream image file backing) ⟨tree, 0⟩ ops

/-- A level 1 entry without a level 2 table reads as zeros although there is a backing file. -/
theorem C38_violated_backing : ∃ file backing : List Byte, Supported file ∧ Covered file ∧ Plain file ∧ TablesInside file ∧
    LayeredInside file backing (source file) (mediaSize file) ∧
    (layered file backing (source file) (mediaSize file)).take 4 = [9#8, 9#8, 9#8, 9#8] ∧
    run38 file (some backing) [.read 4] = .ok [(.read 4, .bytes [0#8, 0#8, 0#8, 0#8])] := by
  refine ⟨image1 1#8 32#8 (entry1 0#8 ++ entry1 0#8), backing38, ?_⟩
  have hm : mediaSize (image1 1#8 32#8 (entry1 0#8 ++ entry1 0#8)) = 32 := by decide +kernel
  refine ⟨supported1 (by decide +kernel), by unfold Covered; decide +kernel, ?_, ?_, ?_, by decide +kernel, by decide +kernel⟩
  · unfold Plain; rw [hm]; decide +kernel
  · unfold TablesInside; rw [hm]; decide +kernel
  · rw [hm]; exact inside_of (by decide +kernel)

/-- A level 1 entry without a level 2 table makes reading fail if it is for more than the rest of the media, for instance
in every empty image that is smaller than what one level 2 table is for. -/
theorem C38_violated_empty : ∃ file : List Byte, Supported file ∧ Covered file ∧ Plain file ∧ TablesInside file ∧ hasBacking file = false ∧
    LayeredInside file [] (source file) (mediaSize file) ∧ 4 ≤ mediaSize file ∧ run38 file none [.read 4] = .err := by
  refine ⟨image1 0#8 8#8 (entry1 0#8), ?_⟩
  have hm : mediaSize (image1 0#8 8#8 (entry1 0#8)) = 8 := by decide +kernel
  refine ⟨supported1 (by decide +kernel), by unfold Covered; decide +kernel, ?_, ?_, by decide +kernel, ?_, by rw [hm]; omega, by decide +kernel⟩
  · unfold Plain; rw [hm]; decide +kernel
  · unfold TablesInside; rw [hm]; decide +kernel
  · rw [hm]; exact inside_of (by decide +kernel)

/-- Whether reading succeeds depends on what was read before: the media read from its start is right, but after a read of
the second half, that has no level 2 table, the read of the first half fails. -/
theorem C38_violated_history : ∃ file : List Byte, Supported file ∧ Covered file ∧ Plain file ∧ TablesInside file ∧ hasBacking file = false ∧
    LayeredInside file [] (source file) (mediaSize file) ∧
    run38 file none [.seek (.start 0), .read 2, .seek (.start 16), .read 2] =
      .ok [(.seek (.start 0), .position 0), (.read 2, .bytes [1#8, 2#8]), (.seek (.start 16), .position 16), (.read 2, .bytes [0#8, 0#8])] ∧
    run38 file none [.seek (.start 16), .read 2, .seek (.start 0), .read 2] = .err := by
  refine ⟨image1 0#8 32#8 (entry1 128#8 ++ entry1 0#8 ++ (entry1 144#8 ++ entry1 0#8) ++ [1#8, 2#8, 3#8, 4#8, 5#8, 6#8, 7#8, 8#8]), ?_⟩
  have hm : mediaSize (image1 0#8 32#8 (entry1 128#8 ++ entry1 0#8 ++ (entry1 144#8 ++ entry1 0#8) ++ [1#8, 2#8, 3#8, 4#8, 5#8, 6#8, 7#8, 8#8])) = 32 := by
    decide +kernel
  refine ⟨supported1 (by decide +kernel), by unfold Covered; decide +kernel, ?_, ?_, by decide +kernel, ?_, by decide +kernel, by decide +kernel⟩
  · unfold Plain; rw [hm]; decide +kernel
  · unfold TablesInside; rw [hm]; decide +kernel
  · rw [hm]; exact inside_of (by decide +kernel)

/-- Reading a compressed cluster panics. -/
theorem C38_violated_compressed : ∃ file : List Byte, Supported file ∧ Covered file ∧ Full file ∧ TablesInside file ∧ 4 ≤ mediaSize file ∧
    run38 file none [.read 4] = .panic := by
  refine ⟨image1 0#8 16#8 (entry1 128#8 ++ entry1 0#8 ++ ([0x80#8, 0#8, 0#8, 0#8, 0#8, 0#8, 0#8, 144#8] ++ entry1 0#8)), ?_⟩
  have hm : mediaSize (image1 0#8 16#8 (entry1 128#8 ++ entry1 0#8 ++ ([0x80#8, 0#8, 0#8, 0#8, 0#8, 0#8, 0#8, 144#8] ++ entry1 0#8))) = 16 := by
    decide +kernel
  refine ⟨supported1 (by decide +kernel), by unfold Covered; decide +kernel, ?_, ?_, by rw [hm]; omega, by decide +kernel⟩
  · unfold Full; rw [hm]; decide +kernel
  · unfold TablesInside; rw [hm]; decide +kernel

/-- A version 3 image with a cluster of 512 bytes that has the zero flag: its level 1 table at 512 and its level 2 table at 1024. -/
private def file38z : List Byte :=
  [0x51#8, 0x46#8, 0x49#8, 0xfb#8, 0#8, 0#8, 0#8, 3#8] ++ List.replicate 12 0#8 ++ [0#8, 0#8, 0#8, 9#8] ++ List.replicate 6 0#8 ++ [2#8, 0#8] ++
  List.replicate 4 0#8 ++ [0#8, 0#8, 0#8, 1#8] ++ List.replicate 6 0#8 ++ [2#8, 0#8] ++ List.replicate 52 0#8 ++ [0#8, 0#8, 0#8, 104#8] ++
  List.replicate 408 0#8 ++ (List.replicate 6 0#8 ++ [4#8, 0#8]) ++ List.replicate 504 0#8 ++ entry1 1#8

/-- The zero flag of version 3 is not known: instead of zeros the start of the file is read. -/
theorem C38_violated_zero_flag : ∃ file : List Byte, Supported file ∧ Covered file ∧
    (∀ x, x < mediaSize file → l1Entry file x = 1024 ∧ l2Entry file x = 1 ∧ source file x = .zero) ∧ 3 ≤ mediaSize file ∧
    run38 file none [.read 3] = .ok [(.read 3, .bytes [0x46#8, 0x49#8, 0xfb#8])] := by
  have hm : mediaSize file38z = 512 := by decide +kernel
  have hv : version file38z = 3 := by decide +kernel
  have hc : clusterBits file38z = 9 := by decide +kernel
  have hl : l2Bits file38z = 6 := by decide +kernel
  have hsp : span file38z = 2 ^ 15 := by decide +kernel
  have ho : l1Offset file38z = 512 := by decide +kernel
  refine ⟨file38z, ⟨by decide +kernel, by decide +kernel, Or.inr (Or.inr hv), ⟨by omega, fun _ => by omega⟩, by omega, by omega, fun _ => by decide +kernel,
    fun _ => by decide +kernel, fun h => by omega, by decide +kernel, by decide +kernel⟩, by unfold Covered; decide +kernel, ?_, by omega, by decide +kernel⟩
  intro x hx
  rw [hm] at hx
  have e1 : l1Entry file38z x = 1024 := by
    unfold l1Entry l1Place
    rw [hsp, Nat.div_eq_of_lt (by omega), ho]
    decide +kernel
  have hp : place file38z 1024 = 1024 := by decide +kernel
  have hcl : cluster file38z = 512 := by decide +kernel
  have e2 : l2Entry file38z x = 1 := by
    unfold l2Entry l2Place
    rw [e1, hp, hcl, Nat.div_eq_of_lt hx]
    decide +kernel
  refine ⟨e1, e2, ?_⟩
  unfold source
  rw [e1, hp, if_neg (by omega), e2, if_pos ⟨hv, rfl⟩]

/-- A version 2 header with 63 cluster bits makes opening panic. -/
theorem C38_violated_cluster_bits (file : List Byte) (hl : 112 ≤ file.length)
    (hsig : bytesAt file 0 4 = [0x51#8, 0x46#8, 0x49#8, 0xfb#8]) (hv : version file = 2) (hc : clusterBits file = 63) :
    Qcow.openImage file = .panic := by
  have h : Qcow.HeaderOk file := by
    refine ⟨hl, hsig, Or.inr (Or.inl hv), ⟨by omega, fun _ => by omega⟩, ?_, fun h => by omega, fun h => by omega⟩
    unfold l2Bits; rw [if_neg (by omega)]; omega
  obtain ⟨x, hx, rfl, -⟩ := (Qcow.readHeader_good file).exists_ok h
  unfold Qcow.openImage
  rw [hx, R.ok_bind]
  have : Qcow.masks (Qcow.headerOf file) = .panic := by
    unfold Qcow.masks Qcow.headerOf
    simp only
    rw [if_neg (by omega), hc]
    rfl
  rw [this]
  rfl

example : let file : List Byte := [0x51#8, 0x46#8, 0x49#8, 0xfb#8, 0#8, 0#8, 0#8, 2#8] ++ List.replicate 12 0#8 ++ [0#8, 0#8, 0#8, 63#8] ++ List.replicate 88 0#8
    112 ≤ file.length ∧ bytesAt file 0 4 = [0x51#8, 0x46#8, 0x49#8, 0xfb#8] ∧ version file = 2 ∧ clusterBits file = 63 := by decide +kernel

/-- The backing file ends before the media does: the rest of the cluster is zeros, but the read gives nothing for it. -/
theorem C38_violated_short_backing : ∃ file backing : List Byte, Supported file ∧ Covered file ∧ Plain file ∧ Full file ∧ TablesInside file ∧
    (layered file backing (source file) (mediaSize file)).take 8 = [9#8, 9#8, 9#8, 9#8, 0#8, 0#8, 0#8, 0#8] ∧
    run38 file (some backing) [.read 8, .read 4] = .ok [(.read 8, .bytes [9#8, 9#8, 9#8, 9#8]), (.read 4, .bytes [])] := by
  refine ⟨image1 1#8 16#8 (entry1 128#8 ++ entry1 0#8 ++ (entry1 0#8 ++ entry1 0#8)), List.replicate 4 9#8, ?_⟩
  have hm : mediaSize (image1 1#8 16#8 (entry1 128#8 ++ entry1 0#8 ++ (entry1 0#8 ++ entry1 0#8))) = 16 := by decide +kernel
  refine ⟨supported1 (by decide +kernel), by unfold Covered; decide +kernel, ?_, ?_, ?_, by decide +kernel, by decide +kernel⟩
  · unfold Plain; rw [hm]; decide +kernel
  · unfold Full; rw [hm]; decide +kernel
  · unfold TablesInside; rw [hm]; decide +kernel

end Keramics.Props
