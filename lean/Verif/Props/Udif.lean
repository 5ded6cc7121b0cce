import Verif.Lemmas.Udif

/-!
# C41: UDIF images

The property list and the decompressors are parameters; the theorems hold for every choice of them.
-/

namespace Keramics.Props
open Keramics Keramics.Spec Keramics.Spec.Udif

/-- C41: an image with a property list is accepted exactly if it ends in a footer, the list has at most 65536 bytes, and the
tables of the list are right and describe a media; the reader never panics. Missing: the entries have to fit in windows of
16384 sectors (8 MiB), as the large ones are rejected or panic, see `C41_violated_large`, and the media has to have less than
2^55 sectors. -/
theorem C41_open_partial (plist : List Byte → R (List (List Byte))) (file : List Byte) (tables : List (List Byte))
    (hplist : plist (plistBytes file) = .ok tables) (hsize : plistSize file ≠ 0)
    (hfork : forkOffset file + forkSize file < 2 ^ 64) (hb : sectorsOf (usedOf (tables.map tableOf)) + 16384 ≤ 2 ^ 55)
    (hw : Windowed (tables.map tableOf)) :
    Udif.openImage plist file ≠ .panic ∧
      ((∃ image, Udif.openImage plist file = .ok image) ↔
        FooterOk file ∧ plistSize file ≤ 65536 ∧ (∀ d ∈ tables, TableOk d) ∧
          Describes (forkOffset file) (forkSize file) (tables.map tableOf)) := by
  have g := Udif.openImage_good plist file hplist hsize hfork hb hw
  refine ⟨g.ne_panic, ?_, fun h => ?_⟩
  · rintro ⟨image, e⟩
    obtain ⟨h1, h2, h3⟩ := g.of_ok e
    exact ⟨h1, h2, h3.tables, h3.describes⟩
  · obtain ⟨image, e, -⟩ := g.exists_ok h
    exact ⟨image, e⟩

/-- C41: every accepted image with a property list is read, under every sequence of reads and seeks, as the media: what the
entries stand for, one after the other. Missing: the bytes of the entries have to be in the file and to decompress to the
size of the entry, and compressed entries at the same place have to have the same size, see `C41_violated_cache`. -/
theorem C41_contents_partial (plist : List Byte → R (List (List Byte))) (decompress : Nat → List Byte → Nat → R (List Byte))
    (file : List Byte) (hlen : file.length < 2 ^ 63) (tables : List (List Byte))
    (hplist : plist (plistBytes file) = .ok tables) (hsize : plistSize file ≠ 0)
    (image : Udif.Image) (hopen : Udif.openImage plist file = .ok image)
    (hr : ∀ e ∈ usedOf (tables.map tableOf), Readable decompress file e) (hcon : Consistent (tables.map tableOf))
    (ops : List StreamOp) (hf : sectorsOf (usedOf (tables.map tableOf)) * 512 + seekBudget ops < 2 ^ 63) :
    ∃ tr, Stream.run (Udif.stream decompress file image) ⟨Udif.newCache, 0⟩ ops = .ok tr ∧ tr.map Prod.fst = ops ∧
      Trace true (contents decompress file (tables.map tableOf)) (sectorsOf (usedOf (tables.map tableOf)) * 512) 0 tr := by
  have ho := Udif.openImage_sat plist file hplist hsize (Udif.sectors_bound hf) hopen
  exact Udif.stream_trace ho hlen hr hcon ops hf

/-- C41: without a property list an image is accepted exactly if it ends in a footer, and if the data fork is inside of the
file the media is the data fork. -/
theorem C41_fork (plist : List Byte → R (List (List Byte))) (file : List Byte) (hsize : plistSize file = 0)
    (hfork : forkOffset file + forkSize file < 2 ^ 64) :
    Udif.openImage plist file ≠ .panic ∧
      ((∃ image, Udif.openImage plist file = .ok image) ↔ FooterOk file) ∧
      ∀ image, Udif.openImage plist file = .ok image → forkOffset file + forkSize file ≤ file.length →
        ∀ ops : List StreamOp, forkSize file + seekBudget ops < 2 ^ 63 →
          ∃ tr, Stream.run (Udif.forkStream file image) ⟨(), 0⟩ ops = .ok tr ∧ tr.map Prod.fst = ops ∧
            Trace true (bytesAt file (forkOffset file) (forkSize file)) (forkSize file) 0 tr := by
  have g := Udif.openFork_good plist file hsize hfork
  refine ⟨g.ne_panic, ⟨?_, fun h => ?_⟩, ?_⟩
  · rintro ⟨image, e⟩
    exact (g.of_ok e).1
  · obtain ⟨image, e, -⟩ := g.exists_ok h
    exact ⟨image, e⟩
  · intro image e hin ops hf
    rw [(g.of_ok e).2]
    exact Udif.fork_trace hin hfork ops hf

/-! ## A case that meets the hypotheses -/

/-- A number of `n` bytes, big-endian. -/
private def be (n x : Nat) : List Byte := ((List.range n).map fun i => BitVec.ofNat 8 (x / 256 ^ i)).reverse

/-- An entry and a table. -/
private def entry (kind start sectors offset size : Nat) : List Byte :=
  be 4 kind ++ be 4 0 ++ be 8 start ++ be 8 sectors ++ be 8 offset ++ be 8 size

private def table (start : Nat) (es : List (List Byte)) : List Byte :=
  [0x6d#8, 0x69#8, 0x73#8, 0x68#8] ++ be 4 1 ++ be 8 start ++ List.replicate 184 0#8 ++ be 4 es.length ++ es.flatten

/-- A file with a data fork and one byte of property list. -/
private def image (fork : List Byte) : List Byte :=
  fork ++ [0x3c#8] ++ ([0x6b#8, 0x6f#8, 0x6c#8, 0x79#8] ++ be 4 4 ++ List.replicate 16 0#8 ++ be 8 0 ++ be 8 fork.length ++
    List.replicate 176 0#8 ++ be 8 fork.length ++ be 8 1 ++ List.replicate 280 0#8)

/-- A decompressor that repeats the first byte. -/
private def fill (_ : Nat) (data : List Byte) (n : Nat) : R (List Byte) := .ok (List.replicate n (data.getD 0 0#8))

/-- Two tables: a compressed, a raw and an empty sector and a comment; a compressed one and the terminator. -/
private def tables41 : List (List Byte) :=
  [table 0 [entry 0x80000005 0 1 512 2, entry 1 1 1 0 512, entry 0x7ffffffe 9 9 9 9, entry 2 2 1 0 0],
    table 3 [entry 0x80000005 0 2 514 1, entry 0xffffffff 2 0 0 0, entry 7 7 7 7 7]]

def file41 : List Byte := image (List.replicate 512 7#8 ++ [8#8, 0#8, 9#8])

private theorem used41 : usedOf (tables41.map tableOf) =
    [⟨0x80000005, 0, 1, 512, 2⟩, ⟨1, 1, 1, 0, 512⟩, ⟨2, 2, 1, 0, 0⟩, ⟨0x80000005, 0, 2, 514, 1⟩] := by decide +kernel

/-- The hypotheses are met. -/
example : FooterOk file41 ∧ plistSize file41 = 1 ∧ forkOffset file41 + forkSize file41 < 2 ^ 64 ∧ file41.length < 2 ^ 63 ∧
    (∀ d ∈ tables41, TableOk d) ∧ Describes (forkOffset file41) (forkSize file41) (tables41.map tableOf) ∧
    sectorsOf (usedOf (tables41.map tableOf)) = 5 ∧ Windowed (tables41.map tableOf) ∧
    (∀ e ∈ usedOf (tables41.map tableOf), Readable fill file41 e) ∧ Consistent (tables41.map tableOf) ∧
    (contents fill file41 (tables41.map tableOf))[511]? = some 8#8 ∧ (contents fill file41 (tables41.map tableOf))[512]? = some 7#8 ∧
    (contents fill file41 (tables41.map tableOf))[1024]? = some 0#8 ∧ (contents fill file41 (tables41.map tableOf))[2559]? = some 9#8 := by
  have h1 : forkOffset file41 = 0 := by decide +kernel
  have h2 : forkSize file41 = 515 := by decide +kernel
  have h3 : file41.length = 1028 := by decide +kernel
  have h4 : tables41.map tableOf = [tableOf tables41[0], tableOf tables41[1]] := rfl
  have hs : sectorsOf (usedOf (tables41.map tableOf)) = 5 := by rw [used41]; decide
  refine ⟨⟨by rw [h3]; omega, by decide +kernel, by decide +kernel⟩, by decide +kernel, by rw [h1, h2]; omega, by rw [h3]; omega, ?_, ?_,
    hs, Or.inl (by rw [hs]; omega), ?_, ?_, by decide +kernel, by decide +kernel, by decide +kernel, by decide +kernel⟩
  · intro d hd
    have : d = tables41[0] ∨ d = tables41[1] := by simpa [tables41] using hd
    rcases this with rfl | rfl <;> exact ⟨by decide +kernel, by decide +kernel, by decide +kernel⟩
  · refine ⟨?_, ?_, ?_⟩
    · rw [h4]
      refine ⟨by decide +kernel, ?_, by decide +kernel, ?_, trivial⟩
      · rw [show (tableOf tables41[0]).used = [⟨0x80000005, 0, 1, 512, 2⟩, ⟨1, 1, 1, 0, 512⟩, ⟨2, 2, 1, 0, 0⟩] by decide +kernel]
        exact ⟨rfl, rfl, rfl, trivial⟩
      · rw [show (tableOf tables41[1]).used = [⟨0x80000005, 0, 2, 514, 1⟩] by decide +kernel]
        exact ⟨rfl, trivial⟩
    · rw [used41, h1, h2]
      unfold EntryOk
      decide
    · rw [used41]
      decide
  · rw [used41]
    intro e he
    simp only [List.mem_cons, List.not_mem_nil, or_false] at he
    unfold Readable
    rw [h3]
    rcases he with rfl | rfl | rfl | rfl
    · exact ⟨by decide, fun _ => ⟨by decide, by decide, _, rfl, List.length_replicate⟩⟩
    · exact ⟨by decide, fun h => absurd h (by decide)⟩
    · exact ⟨by decide, fun h => absurd h (by decide)⟩
    · exact ⟨by decide, fun _ => ⟨by decide, by decide, _, rfl, List.length_replicate⟩⟩
  · unfold Consistent
    rw [used41]
    decide

/-! ## Where the property fails -/

/-- Two compressed entries at the same place, of one sector and of two. -/
private def tables41' : List (List Byte) := [table 0 [entry 0x80000005 0 1 0 1, entry 0x80000005 1 2 0 1]]

private def file41' : List Byte := image [8#8]

/-- C41, violated for compressed entries at the same place with different sizes: the cache is keyed on the place, so that the
read of the second entry panics after the first was read, although it works on its own. -/
theorem C41_violated_cache :
    FooterOk file41' ∧ (∀ d ∈ tables41', TableOk d) ∧ (∀ e ∈ usedOf (tables41'.map tableOf), Readable fill file41' e) ∧
      (do let image ← Udif.openImage (fun _ => .ok tables41') file41'
          Stream.run (Udif.stream fill file41' image) ⟨Udif.newCache, 0⟩ [.seek (.start 1535), .read 1]) =
        .ok [(.seek (.start 1535), .position 1535), (.read 1, .bytes [8#8])] ∧
      (do let image ← Udif.openImage (fun _ => .ok tables41') file41'
          Stream.run (Udif.stream fill file41' image) ⟨Udif.newCache, 0⟩ [.read 1, .seek (.start 1535), .read 1]) = .panic := by
  have h3 : file41'.length = 514 := by decide +kernel
  refine ⟨⟨by rw [h3]; omega, by decide +kernel, by decide +kernel⟩, ?_, ?_, by decide +kernel, by decide +kernel⟩
  · intro d hd
    have : d = tables41'[0] := by simpa [tables41'] using hd
    rw [this]
    exact ⟨by decide +kernel, by decide +kernel, by decide +kernel⟩
  · rw [show usedOf (tables41'.map tableOf) = [⟨0x80000005, 0, 1, 0, 1⟩, ⟨0x80000005, 1, 2, 0, 1⟩] by decide +kernel]
    intro e he
    simp only [List.mem_cons, List.not_mem_nil, or_false] at he
    unfold Readable
    rw [h3]
    rcases he with rfl | rfl <;> exact ⟨by decide, fun _ => ⟨by decide, by decide, _, rfl, List.length_replicate⟩⟩

/-- C41, violated for large entries: the tables describe a media, but opening the image fails for an entry of more than 8 MiB
that is no multiple of 8 MiB and panics for an entry across a multiple of 8 MiB. -/
theorem C41_violated_large :
    (∀ sectors : List Nat, sectors = [16385] ∨ sectors = [16383, 2] →
      ∃ d, TableOk d ∧ (tableOf d).entries.map Entry.sectors = sectors ∧ Describes 0 1 [tableOf d] ∧
        (sectors = [16385] → ∀ image, Udif.openTables 0 1 [d] ≠ .ok image) ∧
        (sectors = [16383, 2] → Udif.openTables 0 1 [d] = .panic)) := by
  intro sectors h
  rcases h with rfl | rfl
  · refine ⟨table 0 [entry 2 0 16385 0 0], ⟨by decide +kernel, by decide +kernel, by decide +kernel⟩, by decide +kernel, ?_, ?_, by simp⟩
    · have hu : (tableOf (table 0 [entry 2 0 16385 0 0])).used = [⟨2, 0, 16385, 0, 0⟩] := by decide +kernel
      have hu' : usedOf [tableOf (table 0 [entry 2 0 16385 0 0])] = [⟨2, 0, 16385, 0, 0⟩] := by decide +kernel
      refine ⟨⟨by decide +kernel, by rw [hu]; exact ⟨rfl, trivial⟩, trivial⟩, ?_, ?_⟩
      · rw [hu']; unfold EntryOk; decide
      · rw [hu']; decide
    · intro _ image e
      have : (match Udif.openTables 0 1 [table 0 [entry 2 0 16385 0 0]] with | .ok _ => true | _ => false) = false := by decide +kernel
      rw [e] at this
      cases this
  · refine ⟨table 0 [entry 2 0 16383 0 0, entry 2 16383 2 0 0], ⟨by decide +kernel, by decide +kernel, by decide +kernel⟩, by decide +kernel, ?_,
      by simp, ?_⟩
    · have hu : (tableOf (table 0 [entry 2 0 16383 0 0, entry 2 16383 2 0 0])).used = [⟨2, 0, 16383, 0, 0⟩, ⟨2, 16383, 2, 0, 0⟩] := by decide +kernel
      have hu' : usedOf [tableOf (table 0 [entry 2 0 16383 0 0, entry 2 16383 2 0 0])] = [⟨2, 0, 16383, 0, 0⟩, ⟨2, 16383, 2, 0, 0⟩] := by decide +kernel
      refine ⟨⟨by decide +kernel, by rw [hu]; exact ⟨rfl, rfl, trivial⟩, trivial⟩, ?_, ?_⟩
      · rw [hu']; unfold EntryOk; decide
      · rw [hu']; decide
    · intro _
      have : (match Udif.openTables 0 1 [table 0 [entry 2 0 16383 0 0, entry 2 16383 2 0 0]] with | .panic => true | _ => false) = true := by decide +kernel
      cases e : Udif.openTables 0 1 [table 0 [entry 2 0 16383 0 0, entry 2 16383 2 0 0]] with
      | ok i => rw [e] at this; cases this
      | err => rw [e] at this; cases this
      | panic => rfl

end Keramics.Props
