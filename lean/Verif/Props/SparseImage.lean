import Verif.Lemmas.SparseImage

/-!
# C43: sparse disk images
-/

namespace Keramics.Props
open Keramics Keramics.Spec Keramics.Spec.SparseImage

/-- C43: an image is accepted exactly if it has a header and its table gives no band of the media twice and none behind
the end; the reader never panics. -/
theorem C43_open (file : List Byte) :
    SparseImage.openImage file ≠ .panic ∧
      ((∃ image, SparseImage.openImage file = .ok image) ↔ HeaderOk file ∧ TableOk file) := by
  have g := SparseImage.openImage_good file
  refine ⟨g.ne_panic, ?_, fun h => ?_⟩
  · rintro ⟨image, e⟩
    exact (g.of_ok e).1
  · obtain ⟨image, e, -⟩ := g.exists_ok h
    exact ⟨image, e⟩

/-- C43: an accepted image whose bands are inside of the file is read, under every sequence of reads and seeks, as the
media: the bytes of a band from its place in the file and zeros for bands that have none. -/
theorem C43_contents (file : List Byte) (hlen : file.length < 2 ^ 63) (image : SparseImage.Image)
    (hopen : SparseImage.openImage file = .ok image) (hin : Inside file) (ops : List StreamOp)
    (hf : sectors file * 512 + seekBudget ops < 2 ^ 63) :
    ∃ tr, Stream.run (SparseImage.stream file image) ⟨(), 0⟩ ops = .ok tr ∧ tr.map Prod.fst = ops ∧
      Trace true (contents file) (sectors file * 512) 0 tr := by
  obtain ⟨⟨h1, h2⟩, h3⟩ := (SparseImage.openImage_good file).of_ok hopen
  exact SparseImage.stream_trace h3 h2 h1 hin hlen ops hf

/-- Three bands of one sector; the first place has the third band, the second none and the third the first band. -/
def file43 : List Byte :=
  [0x73#8, 0x70#8, 0x72#8, 0x73#8] ++ List.replicate 4 0#8 ++ [0#8, 0#8, 0#8, 1#8] ++ List.replicate 4 0#8 ++ [0#8, 0#8, 0#8, 3#8] ++
    List.replicate 44 0#8 ++ [0#8, 0#8, 0#8, 3#8] ++ [0#8, 0#8, 0#8, 0#8] ++ [0#8, 0#8, 0#8, 1#8] ++ List.replicate 4020 0#8 ++
    List.replicate 512 7#8 ++ List.replicate 512 8#8 ++ List.replicate 512 9#8

theorem file43_len : file43.length = 5632 := by decide +kernel

/-- The hypotheses are met: the first and the third band are stored, the second is not. -/
theorem example43 : HeaderOk file43 ∧ TableOk file43 ∧ Inside file43 ∧ place file43 0 = some 2 ∧ place file43 1 = none ∧ place file43 2 = some 0 ∧
    byteAt file43 0 = 9#8 ∧ byteAt file43 1023 = 0#8 ∧ byteAt file43 1535 = 7#8 := by
  have hb : bands file43 = 3 := by decide +kernel
  have hs : bandSize file43 = 512 := by decide +kernel
  refine ⟨⟨by rw [file43_len]; omega, by decide +kernel, by rw [hs]; omega, by rw [hs]; omega, by rw [hb]; omega⟩, ?_, ?_,
    by decide +kernel, by decide +kernel, by decide +kernel, by decide +kernel, by decide +kernel, by decide +kernel⟩
  · unfold TableOk
    rw [hb]
    decide +kernel
  · intro x i _ h
    have : i < bands file43 := by
      unfold place at h
      have := List.mem_of_find?_eq_some h
      simpa using this
    rw [hs, file43_len]
    have := Nat.mod_lt x (show 512 > 0 by omega)
    omega

/-- C43, violated for a file that ends inside of a band: the read goes on with the start of the band. If the file ends `k`
bytes after the start of the first band, a read of the first `2 * k` bytes of the media returns the `k` bytes twice. -/
theorem C43_violated_truncated (file : List Byte) (k : Nat) (hh : HeaderOk file) (ht : TableOk file) (hlen : file.length = 4096 + k)
    (hk : 0 < k) (hk2 : 2 * k ≤ bandSize file) (hk3 : 2 * k ≤ sectors file * 512) (h0 : number file 0 = 1) :
    ∃ image, SparseImage.openImage file = .ok image ∧
      Stream.run (SparseImage.stream file image) ⟨(), 0⟩ [.read (2 * k)] =
        .ok [(.read (2 * k), .bytes (file.drop 4096 ++ file.drop 4096))] := by
  obtain ⟨image, e, -, hi⟩ := (SparseImage.openImage_good file).exists_ok ⟨hh, ht⟩
  refine ⟨image, e, ?_⟩
  have hpos := hh.2.2.1
  have hbs := hh.2.2.2.1
  have hbands : 0 < bands file := by
    have := (ht 0)
    rcases Nat.eq_zero_or_pos (bands file) with h | h
    · have := SparseImage.media_le hpos
      rw [h] at this; omega
    · exact h
  have hplace : place file 0 = some 0 := (SparseImage.place_some ht).2 ⟨hbands, by omega⟩
  have hget : ∀ x, x < 2 * k → BlockTree.get image.tree x = .ok (some 4096) := by
    intro x hx
    rw [SparseImage.get_place hi ht hpos (by omega), Nat.div_eq_of_lt (by omega), hplace]
    simp
  have hread : ∀ n, k ≤ n → Blocks.readAt file (4096 + 0) n = file.drop 4096 := by
    intro n hn
    unfold Blocks.readAt
    rw [Nat.add_zero, List.take_of_length_le]
    rw [List.length_drop]; omega
  have hdl : (file.drop 4096).length = k := by rw [List.length_drop]; omega
  have hp : ∀ x n r, x < 2 * k → k ≤ n → k ≤ r → SparseImage.piece file image (0, r) x n = .ok (file.drop 4096, (0, bandSize file)) := by
    intro x n r hx hn hr
    unfold SparseImage.piece
    rw [hget x hx, R.ok_bind]
    simp only [SparseImage.pieceBytes]
    rw [R.addU_ok (by omega), R.ok_bind, R.pure_eq, R.ok_bind, hread _ (by omega), hi.block]
    rfl
  have hstart : SparseImage.start image () 0 = (0, bandSize file) := by
    unfold SparseImage.start; rw [hi.block]; simp
  have hl : Blocks.loop (SparseImage.piece file image) image.mediaSize (2 * k) (0, bandSize file) 0 (2 * k) =
      .ok (file.drop 4096 ++ file.drop 4096, (0, bandSize file)) := by
    obtain ⟨m, hm⟩ : ∃ m, 2 * k = m + 2 := ⟨2 * k - 2, by omega⟩
    have hmedia := hi.media
    conv_lhs => rw [show Blocks.loop (SparseImage.piece file image) image.mediaSize (2 * k) = Blocks.loop (SparseImage.piece file image) image.mediaSize (m + 2) by rw [hm]]
    unfold Blocks.loop
    rw [if_pos (by omega)]
    simp only
    rw [hp 0 (2 * k) _ (by omega) (by omega) (by omega), R.ok_bind]
    simp only
    rw [if_neg (by omega), hdl, R.addU_ok (by omega), R.ok_bind]
    unfold Blocks.loop
    rw [if_pos (by omega)]
    simp only
    rw [hp (0 + k) _ _ (by omega) (by omega) (by omega), R.ok_bind]
    simp only
    rw [if_neg (by omega), hdl, R.addU_ok (by omega), R.ok_bind]
    unfold Blocks.loop
    rw [if_neg (by omega)]
    simp
  have hc : (0 : Nat) ≥ (SparseImage.stream file image).size ↔ False := by
    show 0 ≥ image.mediaSize ↔ False
    rw [hi.media]
    constructor
    · intro h; omega
    · exact False.elim
  simp only [Stream.run, Stream.step, Stream.read]
  rw [if_neg (by rw [hc]; exact id)]
  have hmin : min (2 * k) ((SparseImage.stream file image).size - 0) = 2 * k := by
    show min (2 * k) (image.mediaSize - 0) = 2 * k
    rw [hi.media]; omega
  rw [hmin]
  have hrd : (SparseImage.stream file image).readData () 0 (2 * k) = .ok (file.drop 4096 ++ file.drop 4096, ()) := by
    show (Blocks.readerWith _ _ _ _).readData () 0 (2 * k) = _
    simp only [Blocks.readerWith]
    rw [hstart, hl, R.ok_bind]
    rfl
  rw [hrd]
  simp only [R.ok_bind]
  rw [R.addU_ok (by rw [List.length_append, hdl]; omega)]
  rfl

/-- One band of one sector, of which the file has two bytes: the four bytes read are 1, 2, 1, 2. -/
def file43' : List Byte :=
  [0x73#8, 0x70#8, 0x72#8, 0x73#8] ++ List.replicate 4 0#8 ++ [0#8, 0#8, 0#8, 1#8] ++ List.replicate 4 0#8 ++ [0#8, 0#8, 0#8, 1#8] ++
    List.replicate 44 0#8 ++ [0#8, 0#8, 0#8, 1#8] ++ List.replicate 4028 0#8 ++ [1#8, 2#8]

example : HeaderOk file43' ∧ TableOk file43' ∧ file43'.length = 4096 + 2 ∧ 2 * 2 ≤ bandSize file43' ∧ 2 * 2 ≤ sectors file43' * 512 ∧
    number file43' 0 = 1 ∧ file43'.drop 4096 ++ file43'.drop 4096 = [1#8, 2#8, 1#8, 2#8] := by
  have hb : bands file43' = 1 := by decide +kernel
  have hs : bandSize file43' = 512 := by decide +kernel
  have hl : file43'.length = 4098 := by decide +kernel
  refine ⟨⟨by rw [hl]; omega, by decide +kernel, by rw [hs]; omega, by rw [hs]; omega, by rw [hb]; omega⟩, ?_, hl, by rw [hs]; omega, by decide +kernel,
    by decide +kernel, by decide +kernel⟩
  unfold TableOk
  rw [hb]
  decide +kernel

end Keramics.Props
