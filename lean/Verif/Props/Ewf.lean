import Verif.Lemmas.Ewf

/-!
# C42: EWF images

The segment files of an image are those with the numbers 1, 2, … up to the one with a section "done". How the sections that do not
describe chunks are read and how chunks are decompressed are parameters; the theorems hold for every choice of them.
-/

namespace Keramics.Props
open Keramics Keramics.Spec Keramics.Spec.Ewf

/-- C42: every accepted image is read, under every sequence of reads and seeks, as the media: the bytes of every chunk as they are
stored in the file of its segment. Missing: images of more than 16 segments, see `C42_violated_segments`, and those with compressed
chunks at the same offset of different segments, see `C42_violated_cache`. -/
theorem C42_contents_partial (other : Nat → Nat → EwfImage.Section → R Unit) (decompress : List Byte → Nat → R (List Byte))
    (files : Nat → Option (List Byte)) (segments : List (List Byte)) (hne : segments ≠ [])
    (hfiles : ∀ i, i < segments.length → files (i + 1) = segments[i]?)
    (hlast : ∀ i, (h : i < segments.length) → (IsLast segments[i] ↔ i + 1 = segments.length))
    (hlen : ∀ file ∈ segments, file.length < 2 ^ 63) (image : EwfImage.State) (cache : EwfImage.Files)
    (hopen : EwfImage.openImage other files = .ok (image, cache))
    (hn : segments.length ≤ 16) (hr : Readable decompress segments) (hapart : Apart segments)
    (ops : List StreamOp) (hf : (volume segments).mediaSize + seekBudget ops < 2 ^ 63) :
    ∃ tr, Stream.run (EwfImage.stream decompress image) ⟨EwfImage.caches cache, 0⟩ ops = .ok tr ∧ tr.map Prod.fst = ops ∧
      Trace true (contents decompress segments) (volume segments).mediaSize 0 tr :=
  EwfImage.stream_trace (EwfImage.openImage_ok hne hfiles hlast hopen) hn hlen hr hapart ops hf

/-- C42: in every accepted image, of any number of segments, every segment file has its number, its sections are where they should
be and have their sizes, and the Adler-32 of all section headers, of all table headers and of all table entries are right. -/
theorem C42_checked (other : Nat → Nat → EwfImage.Section → R Unit) (files : Nat → Option (List Byte)) (segments : List (List Byte))
    (hne : segments ≠ []) (hfiles : ∀ i, i < segments.length → files (i + 1) = segments[i]?)
    (hlast : ∀ i, (h : i < segments.length) → (IsLast segments[i] ↔ i + 1 = segments.length))
    (image : EwfImage.State) (cache : EwfImage.Files) (hopen : EwfImage.openImage other files = .ok (image, cache)) :
    ∀ i, (h : i < segments.length) → Laid (i + 1) segments[i] ∧ (∀ s ∈ sections segments[i], Checked segments[i] s.start 72) ∧
      ∀ t ∈ tablesFrom none (sections segments[i]), Checked segments[i] t.1 20 ∧ Checked segments[i] (t.1 + 24) (4 * field segments[i] t.1 4) :=
  (EwfImage.openImage_ok hne hfiles hlast hopen).checked

/-! ## A case that meets the hypotheses -/

/-- A number of `n` bytes, little-endian. -/
private def le (n x : Nat) : List Byte := (List.range n).map fun i => BitVec.ofNat 8 (x / 256 ^ i)

/-- Bytes with their checksum. -/
private def checked (data : List Byte) : List Byte := data ++ le 4 (adler32 1 (data.map BitVec.toNat))

/-- The header of a section. -/
private def header (k : List Byte) (next : Nat) : List Byte := checked (k ++ le 8 next ++ List.replicate 48 0#8)

/-- The header of a segment file. -/
private def start (k : Nat) : List Byte := [0x45#8, 0x56#8, 0x46#8, 0x09#8, 0x0d#8, 0x0a#8, 0xff#8, 0x00#8, 1#8] ++ le 2 k ++ [0#8, 0#8]

/-- A volume of chunks of two sectors of two bytes. -/
private def volumeData (chunks sectors : Nat) : List Byte :=
  checked (le 4 0 ++ le 4 chunks ++ le 4 2 ++ le 4 2 ++ le 4 sectors ++ List.replicate 70 0#8)

/-- A table with one chunk. -/
private def tableData (e : Nat) : List Byte := checked (le 4 1 ++ List.replicate 16 0#8) ++ checked (le 4 e)

/-- The first segment: a volume of two chunks, with the last sector missing, and a chunk. -/
private def first (e : Nat) (data : List Byte) : List Byte :=
  start 1 ++ header volumeKind 183 ++ volumeData 2 3 ++ header sectorsKind (259 + data.length) ++ data ++
    header tableKind (367 + data.length) ++ tableData e ++ header next (367 + data.length)

/-- The second segment: another chunk. -/
private def second (e : Nat) (data : List Byte) : List Byte :=
  start 2 ++ header sectorsKind (89 + data.length) ++ data ++ header tableKind (197 + data.length) ++ tableData e ++
    header done (197 + data.length)

private def filesOf (segments : List (List Byte)) (k : Nat) : Option (List Byte) := if k = 0 then none else segments[k - 1]?

/-- A decompressor that repeats the first byte. -/
private def fill (data : List Byte) (n : Nat) : R (List Byte) := .ok (List.replicate n (data.getD 0 0#8))

/-- An image with a chunk as is and a compressed one. -/
private def segments42 : List (List Byte) := [first 259 [1#8, 2#8, 3#8, 4#8], second (2 ^ 31 + 89) [7#8, 5#8]]

private theorem isLast_iff (file : List Byte) : IsLast file ↔ (sections file).any (fun s => decide (s.kind = done)) = true := by
  unfold IsLast
  rw [List.any_eq_true]
  simp only [decide_eq_true_iff]

private theorem files_of (segments : List (List Byte)) : ∀ i, i < segments.length → filesOf segments (i + 1) = segments[i]? := by
  intro i _
  unfold filesOf
  rw [if_neg (by omega), Nat.add_sub_cancel]

private theorem last42 : ∀ i, (h : i < segments42.length) → (IsLast segments42[i] ↔ i + 1 = segments42.length) := by
  intro i h
  have hl : segments42.length = 2 := rfl
  rw [isLast_iff, hl]
  have key : ∀ i : Fin 2, (((segments42[i.val]?).getD []) |> fun f => (sections f).any (fun s => decide (s.kind = done))) = decide (i.val + 1 = 2) := by
    decide +kernel
  have := key ⟨i, h⟩
  simp only [List.getElem?_eq_getElem h, Option.getD_some] at this
  rw [this, decide_eq_true_iff]

/-- The hypotheses are met. -/
example : segments42 ≠ [] ∧ (∀ i, i < segments42.length → filesOf segments42 (i + 1) = segments42[i]?) ∧
    (∀ i, (h : i < segments42.length) → (IsLast segments42[i] ↔ i + 1 = segments42.length)) ∧
    (∀ file ∈ segments42, file.length < 2 ^ 63) ∧
    (∃ x, EwfImage.openImage (fun _ _ _ => .ok ()) (filesOf segments42) = .ok x) ∧ segments42.length ≤ 16 ∧
    Readable fill segments42 ∧ Apart segments42 ∧ contents fill segments42 = [1#8, 2#8, 3#8, 4#8, 7#8, 7#8] := by
  have hc : chunks segments42 = [⟨1, 259, 4, false⟩, ⟨2, 89, 2, true⟩] := by decide +kernel
  have hv : volume segments42 = ⟨2, 2, 2, 3⟩ := by decide +kernel
  have h1 : segments42.map List.length = [447, 275] := by decide +kernel
  have h2 : (segmentFile segments42 1).length = 447 := by decide +kernel
  have h3 : (segmentFile segments42 2).length = 275 := by decide +kernel
  refine ⟨by simp [segments42], files_of _, last42, ?_, ?_, by decide, ?_, ?_, by decide +kernel⟩
  · intro file hf
    have : file.length ∈ segments42.map List.length := List.mem_map.2 ⟨file, hf, rfl⟩
    rw [h1] at this
    simp only [List.mem_cons, List.not_mem_nil, or_false] at this
    omega
  · have : (match EwfImage.openImage (fun _ _ _ => .ok ()) (filesOf segments42) with | .ok _ => true | _ => false) = true := by decide +kernel
    cases e : EwfImage.openImage (fun _ _ _ => .ok ()) (filesOf segments42) with
    | ok x => exact ⟨x, rfl⟩
    | err => rw [e] at this; cases this
    | panic => rw [e] at this; cases this
  · unfold Readable
    rw [hc, hv]
    intro x hx
    have hx : x < 6 := hx
    have h4 : Volume.chunkSize ⟨2, 2, 2, 3⟩ = 4 := rfl
    rw [h4]
    by_cases h : x < 4
    · refine ⟨⟨1, 259, 4, false⟩, by rw [show x / 4 = 0 by omega]; rfl, fun _ => ?_, fun h => by cases h⟩
      simp only
      rw [h2]; omega
    · refine ⟨⟨2, 89, 2, true⟩, by rw [show x / 4 = 1 by omega]; rfl, (fun h => by cases h), fun _ => ⟨by decide, ?_, _, rfl, List.length_replicate⟩⟩
      simp only
      rw [h3]; omega
  · unfold Apart
    rw [hc]
    decide

/-! ## Where the property fails -/

/-- C42, violated for more than 16 segments: in every accepted image the bytes of a chunk in a segment that is not one of the last
16 cannot be read, although the segment file has them. -/
theorem C42_violated_segments (other : Nat → Nat → EwfImage.Section → R Unit) (decompress : List Byte → Nat → R (List Byte))
    (files : Nat → Option (List Byte)) (segments : List (List Byte)) (hne : segments ≠ [])
    (hfiles : ∀ i, i < segments.length → files (i + 1) = segments[i]?)
    (hlast : ∀ i, (h : i < segments.length) → (IsLast segments[i] ↔ i + 1 = segments.length))
    (hlen : ∀ file ∈ segments, file.length < 2 ^ 63) (image : EwfImage.State) (cache : EwfImage.Files)
    (hopen : EwfImage.openImage other files = .ok (image, cache)) (hr : Readable decompress segments)
    (x : Nat) (hx : x < (volume segments).mediaSize) (c : Chunk) (hc : (chunks segments)[x / (volume segments).chunkSize]? = some c)
    (hlost : c.segment + 16 ≤ segments.length) (n : Nat) (hn : 0 < n) :
    Stream.run (EwfImage.stream decompress image) ⟨EwfImage.caches cache, 0⟩ [.seek (.start x), .read n] = .err := by
  have ho := EwfImage.openImage_ok hne hfiles hlast hopen
  have hp : ∀ n, EwfImage.piece decompress image (EwfImage.caches cache) x n = .err := fun n => EwfImage.piece_lost ho hlen hr hx hc hlost
  have hm := ho.inv.media
  have hs : (EwfImage.stream decompress image).size = (volume segments).mediaSize := hm
  obtain ⟨m, hm'⟩ : ∃ m, min n ((volume segments).mediaSize - x) = m + 1 := ⟨min n ((volume segments).mediaSize - x) - 1, by omega⟩
  have hread : (EwfImage.stream decompress image).readData (EwfImage.caches cache) x (m + 1) = .err := by
    show Blocks.loop _ image.mediaSize (m + 1) (EwfImage.caches cache) x (m + 1) = .err
    unfold Blocks.loop
    rw [if_pos ⟨by omega, by rw [hm]; exact hx⟩]
    simp only
    rw [hp]
    rfl
  simp only [Stream.run, Stream.step, Stream.seek, seekOffset, Stream.read, R.ok_bind, R.pure_eq]
  rw [hs, if_neg (by omega), hm', hread]
  rfl

/-- A segment without chunks. -/
private def empty (k : Nat) : List Byte := start k ++ header (if k = 17 then done else next) 13

/-- An image of 17 segments; the chunk is in the first one. -/
private def segments17 : List (List Byte) :=
  (start 1 ++ header volumeKind 183 ++ volumeData 1 2 ++ header sectorsKind 263 ++ [1#8, 2#8, 3#8, 4#8] ++
    header tableKind 371 ++ tableData 259 ++ header next 371) :: (List.range' 2 16).map empty

/-- The hypotheses of `C42_violated_segments` are met. -/
example : segments17 ≠ [] ∧ (∀ i, i < segments17.length → filesOf segments17 (i + 1) = segments17[i]?) ∧
    (∀ i, (h : i < segments17.length) → (IsLast segments17[i] ↔ i + 1 = segments17.length)) ∧
    (∀ file ∈ segments17, file.length < 2 ^ 63) ∧
    (∃ x, EwfImage.openImage (fun _ _ _ => .ok ()) (filesOf segments17) = .ok x) ∧ Readable fill segments17 ∧
    contents fill segments17 = [1#8, 2#8, 3#8, 4#8] ∧ (chunks segments17)[0]? = some ⟨1, 259, 4, false⟩ ∧ 1 + 16 ≤ segments17.length := by
  have hc : chunks segments17 = [⟨1, 259, 4, false⟩] := by decide +kernel
  have hv : volume segments17 = ⟨1, 2, 2, 2⟩ := by decide +kernel
  have h1 : (segments17.all fun f => decide (f.length < 1000)) = true := by decide +kernel
  have h2 : (segmentFile segments17 1).length = 447 := by decide +kernel
  have hl : segments17.length = 17 := rfl
  refine ⟨by simp [segments17], files_of _, ?_, ?_, ?_, ?_, by decide +kernel, by rw [hc]; rfl, by rw [hl]⟩
  · intro i h
    rw [isLast_iff, hl]
    have key : ∀ i : Fin 17, (((segments17[i.val]?).getD []) |> fun f => (sections f).any (fun s => decide (s.kind = done))) = decide (i.val + 1 = 17) := by
      decide +kernel
    have := key ⟨i, h⟩
    simp only [List.getElem?_eq_getElem h, Option.getD_some] at this
    rw [this, decide_eq_true_iff]
  · intro file hf
    have := List.all_eq_true.1 h1 file hf
    rw [decide_eq_true_iff] at this
    omega
  · have : (match EwfImage.openImage (fun _ _ _ => .ok ()) (filesOf segments17) with | .ok _ => true | _ => false) = true := by decide +kernel
    cases e : EwfImage.openImage (fun _ _ _ => .ok ()) (filesOf segments17) with
    | ok x => exact ⟨x, rfl⟩
    | err => rw [e] at this; cases this
    | panic => rw [e] at this; cases this
  · unfold Readable
    rw [hc, hv]
    intro x hx
    have hx : x < 4 := hx
    have h4 : Volume.chunkSize ⟨1, 2, 2, 2⟩ = 4 := rfl
    rw [h4]
    refine ⟨⟨1, 259, 4, false⟩, by rw [show x / 4 = 0 by omega]; rfl, fun _ => ?_, fun h => by cases h⟩
    simp only
    rw [h2]; omega

/-- Two segments with a compressed chunk at the same offset. -/
private def segments42' : List (List Byte) :=
  [first (2 ^ 31 + 259) [8#8], second (2 ^ 31 + 259) (List.replicate 170 0#8 ++ [9#8])]

/-- C42, violated for compressed chunks at the same offset of different segments: the cache is keyed on the offset, so that the
bytes of the second chunk are right on their own, but those of the first chunk once that was read. -/
theorem C42_violated_cache :
    contents fill segments42' = [8#8, 8#8, 8#8, 8#8, 9#8, 9#8] ∧
      (do let (image, cache) ← EwfImage.openImage (fun _ _ _ => .ok ()) (filesOf segments42')
          Stream.run (EwfImage.stream fill image) ⟨EwfImage.caches cache, 0⟩ [.seek (.start 4), .read 2]) =
        .ok [(.seek (.start 4), .position 4), (.read 2, .bytes [9#8, 9#8])] ∧
      (do let (image, cache) ← EwfImage.openImage (fun _ _ _ => .ok ()) (filesOf segments42')
          Stream.run (EwfImage.stream fill image) ⟨EwfImage.caches cache, 0⟩ [.read 4, .read 2]) =
        .ok [(.read 4, .bytes [8#8, 8#8, 8#8, 8#8]), (.read 2, .bytes [8#8, 8#8])] := by
  refine ⟨by decide +kernel, by decide +kernel, by decide +kernel⟩

end Keramics.Props
