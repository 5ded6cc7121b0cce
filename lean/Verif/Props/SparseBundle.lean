import Verif.Base.Tactics
import Verif.Lemmas.Blocks
import Verif.Model.SparseBundle
import Verif.Spec.SparseBundle

/-! # C55: sparse bundles -/

namespace Keramics.SparseBundle
open Keramics.Spec.SparseBundle

theorem fmtHex_eq (n : Nat) : ∀ acc, fmtHex n acc = hexName n ++ acc := by
  induction n using Nat.strongRecOn with
  | _ n ih =>
    intro acc
    have hd : ∀ d, d < 16 → (if d < 10 then Char.ofNat (0x30 + d) else Char.ofNat (0x61 + (d - 10))) = digit d := by decide
    have hm := Nat.mod_lt n (show 16 > 0 by omega)
    rw [fmtHex, hexName, hd _ hm]
    by_cases h : n < 16
    · rw [if_pos h, dif_pos (by omega), Nat.mod_eq_of_lt h]
      rfl
    · rw [if_neg h, dif_neg (by omega), ih (n / 16) (by omega)]
      simp

theorem contents_length (files : Files) (bandSize size : Nat) : (contents files bandSize size).length = size := by simp [contents]

/-- The range at a position. -/
def At (image : Image) (r : Range) (pos : Nat) : Prop :=
  r = ⟨pos / image.blockSize, pos % image.blockSize, image.blockSize - pos % image.blockSize⟩

theorem start_at (image : Image) (pos : Nat) : At image (start image () pos) pos := by
  unfold At start
  have h1 := Nat.div_add_mod pos image.blockSize
  rw [Nat.mul_comm] at h1
  simp only
  rw [show pos - pos / image.blockSize * image.blockSize = pos % image.blockSize by omega]

theorem piece_spec {files : Files} {image : Image} (hpos : 0 < image.blockSize) (hs : Stored files image.blockSize image.mediaSize) {r : Range} {pos n : Nat}
    (ha : At image r pos) (hn : 0 < n) (hle : pos + n ≤ image.mediaSize) :
    ∃ out, piece files image r pos n = .ok (out, ⟨pos / image.blockSize + 1, 0, image.blockSize⟩) ∧ out.length = min n (image.blockSize - pos % image.blockSize) ∧
      ∀ i, i < out.length → out[i]? = (contents files image.blockSize image.mediaSize)[pos + i]? := by
  obtain ⟨file, hf, hl⟩ := hs pos (by omega)
  have hm := Nat.mod_lt pos hpos
  rw [ha]
  have hname : files ["bands".toList, fmtHex (pos / image.blockSize) []] = some file := by
    rw [fmtHex_eq, List.append_nil]; exact hf
  -- all bytes of the piece are in the file
  have hdm : ∀ i, pos % image.blockSize + i < image.blockSize → (pos + i) / image.blockSize = pos / image.blockSize ∧ (pos + i) % image.blockSize = pos % image.blockSize + i := by
    intro i hi
    have h1 := Nat.div_add_mod pos image.blockSize
    have e : pos + i = pos % image.blockSize + i + image.blockSize * (pos / image.blockSize) := by omega
    refine ⟨?_, ?_⟩
    · conv_lhs => rw [e, Nat.add_mul_div_left _ _ hpos, Nat.div_eq_of_lt hi, Nat.zero_add]
    · conv_lhs => rw [e, Nat.add_mul_mod_self_left, Nat.mod_eq_of_lt hi]
  have hin : ∀ i, i < min n (image.blockSize - pos % image.blockSize) → pos % image.blockSize + i < file.length := by
    intro i hi
    obtain ⟨file', hf', hl'⟩ := hs (pos + i) (by omega)
    obtain ⟨d1, d2⟩ := hdm i (by omega)
    rw [d1, hf, Option.some.injEq] at hf'
    rw [d2, ← hf'] at hl'
    exact hl'
  have hcount : pos % image.blockSize + min n (image.blockSize - pos % image.blockSize) ≤ file.length := by
    have := hin (min n (image.blockSize - pos % image.blockSize) - 1) (by omega)
    omega
  refine ⟨Blocks.readAt file (pos % image.blockSize) (min n (image.blockSize - pos % image.blockSize)), ?_, ?_, ?_⟩
  · unfold piece
    simp only
    rw [hname]
    rfl
  · unfold Blocks.readAt
    rw [List.length_take, List.length_drop]
    omega
  · intro i hi
    have hi' : i < min n (image.blockSize - pos % image.blockSize) := by
      unfold Blocks.readAt at hi
      rw [List.length_take, List.length_drop] at hi
      omega
    obtain ⟨d1, d2⟩ := hdm i (by omega)
    have := hin i hi'
    unfold Blocks.readAt contents
    rw [List.getElem?_take_of_lt hi', List.getElem?_drop, List.getElem?_map, List.getElem?_range (by omega), Option.map_some]
    unfold byteAt
    rw [d1, d2, hf, Option.getD_some, List.getD_eq_getElem?_getD, List.getElem?_eq_getElem this]
    rfl

end Keramics.SparseBundle

namespace Keramics.Props
open Keramics Keramics.Spec Keramics.Spec.SparseBundle

/-- C55: a bundle is accepted exactly if its property list has version 6.0, the type of a sparse bundle, a band size from 1 to 2^32 - 1 and a size of at
least 1; these are the sizes of the image. It never panics. -/
theorem C55_open (info : SparseBundle.Info) (image : SparseBundle.Image) :
    SparseBundle.openInfo info ≠ .panic ∧
      (SparseBundle.openInfo info = .ok image ↔ info.version = some "6.0" ∧ info.type = some "com.apple.diskimage.sparsebundle" ∧
        info.bandSize = some (image.blockSize : Int) ∧ 0 < image.blockSize ∧ image.blockSize < 2 ^ 32 ∧ info.size = some (image.mediaSize : Int) ∧ 0 < image.mediaSize) := by
  obtain ⟨version, type, bandSize, size⟩ := info
  obtain ⟨blockSize, mediaSize⟩ := image
  unfold SparseBundle.openInfo
  cases version with
  | none => simp [SparseBundle.some?]
  | some v =>
  cases type with
  | none =>
    simp only [SparseBundle.some?, R.ok_bind]
    by_cases hv : v = "6.0"
    · simp [R.require_true hv]
    · simp [R.require_false hv]
  | some t =>
  simp only [SparseBundle.some?, R.ok_bind]
  by_cases hv : v = "6.0"
  swap
  · rw [R.require_false hv]; simp [hv]
  rw [R.require_true hv, R.ok_bind]
  by_cases ht : t = "com.apple.diskimage.sparsebundle"
  swap
  · rw [R.require_false ht]; simp [ht]
  rw [R.require_true ht, R.ok_bind]
  cases bandSize with
  | none => simp
  | some b =>
  simp only [R.ok_bind]
  by_cases hb : ¬ (b ≤ 0 ∨ b > 4294967295)
  swap
  · rw [R.require_false hb]
    simp only [R.err_bind, ne_eq, reduceCtorEq, not_false_eq_true, true_and, false_iff, Option.some.injEq]
    rintro ⟨-, -, h, h1, h2, -⟩
    omega
  rw [R.require_true hb, R.ok_bind]
  cases size with
  | none => simp
  | some s =>
  simp only [R.ok_bind]
  by_cases hs : ¬ s ≤ 0
  swap
  · rw [R.require_false hs]
    simp only [R.err_bind, ne_eq, reduceCtorEq, not_false_eq_true, true_and, false_iff, Option.some.injEq]
    rintro ⟨-, -, -, -, -, h, h1⟩
    omega
  rw [R.require_true hs, R.ok_bind]
  simp only [R.pure_eq, ne_eq, reduceCtorEq, not_false_eq_true, true_and, R.ok.injEq, SparseBundle.Image.mk.injEq, Option.some.injEq, hv, ht]
  omega

/-- C55: an image all of whose bytes are stored is read, under every sequence of reads and seeks, as the media: the bytes of every band from the file with its
number. Missing: bands, and ends of bands, that are not stored (`C55_violated_missing`, `C55_violated_short`). -/
theorem C55_contents_partial (files : Files) (image : SparseBundle.Image) (hpos : 0 < image.blockSize) (hs : Stored files image.blockSize image.mediaSize)
    (ops : List StreamOp) (hf : image.mediaSize + seekBudget ops < 2 ^ 63) :
    ∃ tr, Stream.run (SparseBundle.stream files image) ⟨(), 0⟩ ops = .ok tr ∧ tr.map Prod.fst = ops ∧
      Trace true (contents files image.blockSize image.mediaSize) image.mediaSize 0 tr := by
  have hp : Blocks.PieceOkAt (SparseBundle.piece files image) (fun _ => True) (SparseBundle.At image) (contents files image.blockSize image.mediaSize) := by
    intro s pos n out s' _ ha hn hle h
    rw [SparseBundle.contents_length] at hle
    obtain ⟨out', e, hlen, hb⟩ := SparseBundle.piece_spec hpos hs ha hn hle
    rw [e, R.ok.injEq, Prod.mk.injEq] at h
    obtain ⟨rfl, rfl⟩ := h
    have hm := Nat.mod_lt pos hpos
    refine ⟨trivial, fun hlt => ?_, ?_, ?_⟩
    · have h1 := Nat.div_add_mod pos image.blockSize
      have e2 : pos + out'.length = image.blockSize * (pos / image.blockSize + 1) := by rw [Nat.mul_add]; omega
      unfold SparseBundle.At
      rw [e2, Nat.mul_mod_right, Nat.mul_div_cancel_left _ hpos]; rfl
    · intro e
      rw [e, List.length_nil] at hlen
      omega
    · exact Blocks.prefix_of_bytes (by omega) (by rw [SparseBundle.contents_length]; omega) hb
  have htot : Blocks.PieceTotalAt (SparseBundle.piece files image) (fun _ => True) (SparseBundle.At image) (contents files image.blockSize image.mediaSize) := by
    intro s pos n _ ha hn hle
    rw [SparseBundle.contents_length] at hle
    obtain ⟨out, e, -⟩ := SparseBundle.piece_spec hpos hs ha hn hle
    exact ⟨_, _, e⟩
  have := Blocks.blocks_correct_at hp htot (I := fun _ : Unit => True) (start := SparseBundle.start image) (finish := fun _ => ())
    (fun i pos _ _ => ⟨trivial, SparseBundle.start_at image pos⟩) (fun _ _ => trivial) ops (by rw [SparseBundle.contents_length]; exact hf) () trivial
  rw [SparseBundle.contents_length] at this
  exact this

/-- C55, violated for bands that are not stored, which are zeros: reading at a position in such a band is an error. -/
theorem C55_violated_missing (files : Files) (image : SparseBundle.Image) (pos n : Nat) (hn : 0 < n) (hpos : pos < image.mediaSize)
    (hb : band files (pos / image.blockSize) = none) :
    Stream.run (SparseBundle.stream files image) ⟨(), 0⟩ [.seek (.start pos), .read n] = .err := by
  simp only [Stream.run, Stream.step, Stream.seek, seekOffset, R.ok_bind, R.pure_eq, Stream.read]
  have hsz : (SparseBundle.stream files image).size = image.mediaSize := rfl
  rw [if_neg (by rw [hsz]; omega), hsz]
  have hread : (SparseBundle.stream files image).readData () pos (min n (image.mediaSize - pos)) = .err := by
    show (Blocks.readerWith _ _ _ _).readData () pos (min n (image.mediaSize - pos)) = _
    simp only [Blocks.readerWith]
    obtain ⟨m, hm⟩ : ∃ m, min n (image.mediaSize - pos) = m + 1 := ⟨min n (image.mediaSize - pos) - 1, by omega⟩
    rw [hm]
    unfold Blocks.loop
    rw [if_pos ⟨by omega, hpos⟩]
    simp only
    have : SparseBundle.piece files image (SparseBundle.start image () pos) pos (m + 1) = .err := by
      rw [SparseBundle.start_at image pos]
      unfold SparseBundle.piece
      simp only
      rw [SparseBundle.fmtHex_eq, List.append_nil, show files ["bands".toList, hexName (pos / image.blockSize)] = none from hb]
      rfl
    rw [this]
    rfl
  rw [hread]
  rfl

/-- C55, violated for the end of a band that is not stored, which is zeros: the read goes on with the next band. If the file of the first band has `k` bytes
and that of the second at least `m`, a read of `k + m` bytes from the first band returns the `k` and the `m` bytes. -/
theorem C55_violated_short (files : Files) (image : SparseBundle.Image) (first second : List Byte) (m : Nat)
    (h1 : band files 0 = some first) (h2 : band files 1 = some second) (hk : 0 < first.length) (hm : 0 < m) (hm2 : m ≤ second.length)
    (hfit : first.length + m ≤ image.blockSize) (hsize : first.length + m ≤ image.mediaSize) (h64 : image.mediaSize < 2 ^ 63) :
    Stream.run (SparseBundle.stream files image) ⟨(), 0⟩ [.read (first.length + m)] = .ok [(.read (first.length + m), .bytes (first ++ second.take m))] := by
  have hp0 : ∀ n, first.length ≤ n → SparseBundle.piece files image ⟨0, 0, image.blockSize⟩ 0 n = .ok (first, ⟨1, 0, image.blockSize⟩) := by
    intro n hn
    unfold SparseBundle.piece
    simp only
    rw [SparseBundle.fmtHex_eq, List.append_nil, show files ["bands".toList, hexName 0] = some first from h1]
    simp only [SparseBundle.some?, R.ok_bind, R.pure_eq, Blocks.readAt, List.drop_zero]
    rw [List.take_of_length_le (by omega)]
  have hp1 : ∀ x, SparseBundle.piece files image ⟨1, 0, image.blockSize⟩ x m = .ok (second.take m, ⟨2, 0, image.blockSize⟩) := by
    intro x
    unfold SparseBundle.piece
    simp only
    rw [SparseBundle.fmtHex_eq, List.append_nil, show files ["bands".toList, hexName 1] = some second from h2]
    simp only [SparseBundle.some?, R.ok_bind, R.pure_eq, Blocks.readAt, List.drop_zero]
    rw [Nat.min_eq_left (by omega)]
  have hstart : SparseBundle.start image () 0 = ⟨0, 0, image.blockSize⟩ := by
    unfold SparseBundle.start; simp
  have hlm : (second.take m).length = m := by rw [List.length_take]; omega
  have hl : Blocks.loop (SparseBundle.piece files image) image.mediaSize (first.length + m) ⟨0, 0, image.blockSize⟩ 0 (first.length + m) =
      .ok (first ++ second.take m, ⟨2, 0, image.blockSize⟩) := by
    obtain ⟨f, hf⟩ : ∃ f, first.length + m = f + 2 := ⟨first.length + m - 2, by omega⟩
    conv_lhs => rw [show Blocks.loop (SparseBundle.piece files image) image.mediaSize (first.length + m) = Blocks.loop (SparseBundle.piece files image) image.mediaSize (f + 2) by rw [hf]]
    unfold Blocks.loop
    rw [if_pos (by omega)]
    simp only
    rw [hp0 _ (by omega), R.ok_bind]
    simp only
    rw [if_neg (by omega), R.addU_ok (by omega), R.ok_bind, show first.length + m - first.length = m by omega]
    unfold Blocks.loop
    rw [if_pos (by omega)]
    simp only
    rw [hp1, R.ok_bind]
    simp only
    rw [if_neg (by omega), hlm, R.addU_ok (by omega), R.ok_bind]
    unfold Blocks.loop
    rw [if_neg (by omega)]
    simp
  simp only [Stream.run, Stream.step, Stream.read]
  have hsz : (SparseBundle.stream files image).size = image.mediaSize := rfl
  rw [if_neg (by rw [hsz]; omega), hsz, show min (first.length + m) (image.mediaSize - 0) = first.length + m by omega]
  have hrd : (SparseBundle.stream files image).readData () 0 (first.length + m) = .ok (first ++ second.take m, ()) := by
    show (Blocks.readerWith _ _ _ _).readData () 0 (first.length + m) = _
    simp only [Blocks.readerWith]
    rw [hstart, hl, R.ok_bind]
    rfl
  rw [hrd]
  simp only [R.ok_bind]
  rw [R.addU_ok (by rw [List.length_append, hlm]; omega)]
  rfl

/-- Band 26 is the file `1a`. -/
example : hexName 26 = ['1', 'a'] := by decide +kernel

/-- A bundle of 3 bands of 2 bytes, of which the last has 1: every byte is stored. -/
private def files55 : Files := fun path =>
  if path = ["bands".toList, "0".toList] then some [1#8, 2#8] else if path = ["bands".toList, "1".toList] then some [3#8, 4#8] else
    if path = ["bands".toList, "2".toList] then some [5#8] else none

private theorem bands55 : band files55 0 = some [1#8, 2#8] ∧ band files55 1 = some [3#8, 4#8] ∧ band files55 2 = some [5#8] ∧ band files55 3 = none := by
  refine ⟨?_, ?_, ?_, ?_⟩ <;> decide +kernel

example : Stored files55 2 5 ∧ contents files55 2 5 = [1#8, 2#8, 3#8, 4#8, 5#8] := by
  obtain ⟨h0, h1, h2, -⟩ := bands55
  refine ⟨?_, by decide +kernel⟩
  intro x hx
  rcases (show x / 2 = 0 ∨ x / 2 = 1 ∨ x / 2 = 2 by omega) with h | h | h
  · exact ⟨[1#8, 2#8], by rw [h]; exact h0, Nat.mod_lt _ (by decide)⟩
  · exact ⟨[3#8, 4#8], by rw [h]; exact h1, Nat.mod_lt _ (by decide)⟩
  · exact ⟨[5#8], by rw [h]; exact h2, by simp; omega⟩

/-- The hypotheses of the violations: with 4 bands of 4 bytes the last is not stored, and the first has 2 bytes. -/
example : band files55 (12 / 4) = none ∧ band files55 0 = some [1#8, 2#8] ∧ band files55 1 = some [3#8, 4#8] ∧ [1#8, 2#8].length + 2 ≤ 4 :=
  ⟨bands55.2.2.2, bands55.1, bands55.2.1, by decide⟩

end Keramics.Props
