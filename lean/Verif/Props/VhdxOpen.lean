import Verif.Lemmas.VhdxOpen
import Verif.Props.Vhdx

/-! # C70: opening VHDX files -/

namespace Keramics.Props
open Keramics.Spec Keramics.Spec.VhdxFile

/-- The disk that a file describes. -/
def disk70 (file : List Byte) : Spec.Vhdx.Disk :=
  ⟨blockSize file, sectorSize file, mediaSize file, ((region file batRegion).map Prod.fst).getD 0, ((region file batRegion).map Prod.snd).getD 0 / 8,
    flags file / 2 % 2 == 1⟩

/-- What opening a file gives is what its structures tell. -/
structure Right70 (file : List Byte) (v : Vhdx.File) : Prop where
  /-- The identifier and the version of the header in use. -/
  identifier : ∀ b, b.length = 16 → Spec.bytesAt file (current file + 32) 16 = guidBytes b → Uuid.toString v.identifier = uuidText b
  version : v.version = Spec.field file (current file + 66) 2
  blockSize : v.image.blockSize = blockSize file
  mediaSize : v.image.mediaSize = mediaSize file
  sectorSize : v.image.sectorSize = sectorSize file
  table : ∃ n, region file batRegion = some (v.image.tableOffset, n) ∧ v.image.entries = n / 8
  /-- From bits 0 and 1 of the flags: that blocks stay allocated, and that there is a parent. Fixed and dynamic are the wrong way round, see
  `C70_violated_kind`. -/
  kind : v.image.diskType = match flags file % 4 with
    | 0 => .fixed
    | 1 => .dynamic
    | 2 => .differential
    | _ => .unknown
  parentName : v.parentName = parentName file
  noParent : parentValue file "parent_linkage" = none → v.parentIdentifier = none
  parent : ∀ s t, parentValue file "parent_linkage" = some s → Braced s t → ∃ u, v.parentIdentifier = some u ∧ Uuid.toString u = t.map lower

private theorem right70 {file : List Byte} {v : Vhdx.File} (hv : Valid file true) (h : Vhdx.Opened file v) : Right70 file v := by
  have hi : v.image = Vhdx.imageOf (Vhdx.metadataOf file) := by
    have := congrArg Prod.fst h.image
    rw [h.metadata] at this
    exact this
  refine ⟨fun b hb he => ?_, h.version, by rw [hi]; rfl, by rw [hi]; rfl, by rw [hi]; rfl, ?_, ?_, h.parent.2.2, h.parent.1, h.parent.2.1⟩
  · have h1 := C13_le_bytes b hb
    obtain ⟨u, h2, -, h3⟩ := C13_be_bytes b hb
    rw [h2, ← he] at h1
    have hl : (Spec.bytesAt file (current file + 32) 16).length = 16 := by
      rw [he]
      match b, hb with
      | [b0, b1, b2, b3, b4, b5, b6, b7, b8, b9, b10, b11, b12, b13, b14, b15], _ => rfl
    rw [Vhdx.uuid_ok hl, R.ok.injEq] at h1
    rw [h.identifier, h1, h3]
  · obtain ⟨o, n, h1, -⟩ := hv.contents.table
    refine ⟨n, ?_, ?_⟩
    · rw [hi, h1]; show some (o, n) = some (((region file batRegion).map Prod.fst).getD 0, n); rw [h1]; rfl
    · rw [hi]; show ((region file batRegion).map Prod.snd).getD 0 / 8 = n / 8; rw [h1]; rfl
  · rw [hi]
    show Vhdx.diskTypeOf (flags file) = _
    unfold Vhdx.diskTypeOf
    have h4 : flags file % 4 < 4 := Nat.mod_lt _ (by omega)
    revert h4
    generalize flags file % 4 = x
    intro h4
    match x, h4 with
    | 0, _ => rfl
    | 1, _ => rfl
    | 2, _ => rfl
    | 3, _ => rfl

/-- Opening a file: it is opened if and only if it is good, with what its structures tell, and nothing makes it panic: for files with at most 2047
items of metadata, and with texts of full units of 16 bits and an identifier in braces in the parent locator.
Missing: other metadata tables, see `C70_violated_items`, other texts, see `C70_violated_text`; files of which one copy of the header or of the
region table is damaged, see `C70_violated_header` and `C70_violated_regions`; that a checksum of 0 is not accepted, see `C70_violated_checksum`; and
that the log is replayed first, see `C70_violated_log`. -/
theorem C70_open_partial (file : List Byte) (hU : file.length < 2 ^ 63) (hn : items file ≤ 2047) (ht : Texts file) :
    Vhdx.openFile file ≠ .panic ∧ ((∃ v, Vhdx.openFile file = .ok v) ↔ Valid file true) ∧
    ∀ v, Vhdx.openFile file = .ok v → Right70 file v := by
  have h := Vhdx.openFile_good hU hn ht
  refine ⟨h.ne_panic, ⟨fun ⟨p, hp⟩ => (h.of_ok hp).1, fun hs => ?_⟩, fun v hv => right70 (h.of_ok hv).1 (h.of_ok hv).2⟩
  obtain ⟨p, hp, -⟩ := h.exists_ok hs
  exact ⟨p, hp⟩

/-- From a file to its media: every history of reads and seeks on an opened file succeeds and gives the bytes of the blocks in the file, and for the others
zeros or the bytes of the parent. Missing: as for `C40_contents_partial`. -/
theorem C70_contents_partial (file : List Byte) (parent : Option (List Byte)) (hU : file.length < 2 ^ 63) (hn : items file ≤ 2047) (ht : Texts file)
    (hg : Valid file true) (hv : Spec.Vhdx.Valid (disk70 file))
    (hl : (flags file % 4 = 0 ∧ mediaSize file ≤ Spec.Vhdx.perChunk (disk70 file) * blockSize file) ∨ flags file % 4 = 1 ∨ flags file % 4 = 2)
    (hst : Spec.Vhdx.StatesOk (disk70 file) file) (hw : Spec.Vhdx.Whole (disk70 file) file) (hti : Spec.Vhdx.TableInside (disk70 file) file)
    (hpl : Spec.Vhdx.PlacesBelow (disk70 file) file)
    (hin : LayeredInside file (parent.getD []) (Spec.Vhdx.source (disk70 file) file) (mediaSize file)) (ops : List StreamOp)
    (hf : mediaSize file + seekBudget ops < 2 ^ 63) :
    ∃ v, Vhdx.openFile file = .ok v ∧ ∃ tr, Stream.run (Vhdx.stream v.image file parent) ⟨v.tree, 0⟩ ops = .ok tr ∧
      tr.map Prod.fst = ops ∧
      Trace true (layered file (parent.getD []) (Spec.Vhdx.source (disk70 file) file) (mediaSize file)) (mediaSize file) 0 tr := by
  obtain ⟨v, hok, -, hop⟩ := (Vhdx.openFile_good hU hn ht).exists_ok hg
  refine ⟨v, hok, ?_⟩
  have h32 : (Vhdx.metadataOf file).tableSize < 2 ^ 32 := by
    obtain ⟨o, n, h1, -⟩ := hg.contents.table
    have : (Vhdx.metadataOf file).tableSize = n := by unfold Vhdx.metadataOf; rw [h1]; rfl
    rw [this]
    unfold region at h1
    rw [Option.map_eq_some_iff] at h1
    obtain ⟨e, -, he⟩ := h1
    cases he
    exact Vhdx.field_lt e 24 4
  obtain ⟨image, tree, h1, tr, h2⟩ := Props.Vhdx.C40_contents_partial (Vhdx.metadataOf file) file parent h32 hv hl hst hw hti hpl hU hin ops hf
  have h3 := (Vhdx.openImage_good (Vhdx.metadataOf file) h32).of_ok h1
  have h4 := hop.image
  rw [hop.metadata, ← h3.1, Prod.mk.injEq] at h4
  rw [h4.1, h4.2]
  exact ⟨tr, h2⟩

private theorem after_none (l : List (Nat × Nat)) (h : ∀ p ∈ l, p.2 ≠ 0x5c) : Vhdx.afterBackslash l = 0 := by
  induction l with
  | nil => rfl
  | cons p l ih =>
    unfold Vhdx.afterBackslash
    rw [if_neg (h p (by simp)), ih fun q hq => h q (by simp [hq])]

private theorem after_skip (l m : List (Nat × Nat)) (h : ∀ p ∈ l, p.2 ≠ 0x5c) : Vhdx.afterBackslash (l ++ m) = Vhdx.afterBackslash m := by
  induction l with
  | nil => rfl
  | cons p l ih =>
    rw [List.cons_append, Vhdx.afterBackslash, if_neg (h p (by simp)), ih fun q hq => h q (by simp [hq])]

private theorem zip_snd {s : List Nat} {k : Nat} {p : Nat × Nat} (h : p ∈ ((List.range' k s.length).zip s)) : p.2 ∈ s := (List.of_mem_zip h).2

private theorem split70 (s : List Nat) : ∃ t, FileName s t := by
  induction s with
  | nil => exact ⟨[], by simp, Or.inl rfl⟩
  | cons c s ih =>
    obtain ⟨t, h1, h2⟩ := ih
    rcases h2 with rfl | ⟨p, rfl⟩
    · by_cases hc : c = 0x5c
      · exact ⟨s, h1, Or.inr ⟨[], by rw [hc]; rfl⟩⟩
      · exact ⟨c :: s, by simp [h1]; omega, Or.inl rfl⟩
    · exact ⟨t, h1, Or.inr ⟨c :: p, rfl⟩⟩

/-- The file name of a parent is what follows the last backslash of its name. -/
theorem C70_parent_file_name (s : List Nat) :
    Vhdx.parentFileName none = .ok none ∧ (∃ t, FileName s t) ∧ ∀ t, FileName s t → Vhdx.parentFileName (some s) = .ok (some t) := by
  refine ⟨rfl, split70 s, fun t ⟨h1, h2⟩ => ?_⟩
  unfold Vhdx.parentFileName
  simp only
  rcases h2 with rfl | ⟨p, rfl⟩
  · have : Vhdx.afterBackslash ((List.range s.length).zip s).reverse = 0 := by
      refine after_none _ fun q hq he => h1 ?_
      rw [List.mem_reverse, List.range_eq_range'] at hq
      rw [← he]; exact zip_snd hq
    rw [this, R.slice_ok (by omega) (by omega), R.ok_bind]
    simp
  · have hz : (List.range (p ++ [0x5c] ++ t).length).zip (p ++ [0x5c] ++ t) =
        (List.range' 0 p.length).zip p ++ [(p.length, 0x5c)] ++ (List.range' (p.length + 1) t.length).zip t := by
      rw [List.range_eq_range', List.length_append, List.length_append, List.length_singleton, ← List.range'_append, ← List.range'_append,
        List.zip_append (by simp), List.zip_append (by simp)]
      simp
    have : Vhdx.afterBackslash ((List.range (p ++ [0x5c] ++ t).length).zip (p ++ [0x5c] ++ t)).reverse = p.length + 1 := by
      rw [hz, List.reverse_append, List.reverse_append, after_skip]
      · rfl
      · intro q hq he
        rw [List.mem_reverse] at hq
        refine h1 ?_
        rw [← he]; exact zip_snd hq
    rw [this, R.slice_ok (by simp) (by simp), R.ok_bind]
    simp only [List.length_append, List.length_singleton]
    rw [List.drop_append_of_le_length (by simp), List.drop_of_length_le (by simp), List.nil_append, List.take_of_length_le (by omega)]
    rfl

/-! ## A file -/

/-- Filled with zeros up to a size. -/
private def full (n : Nat) (l : List Byte) : List Byte := l ++ List.replicate (n - l.length) 0#8

/-- Pieces of 64 KiB each. -/
private def pieces : List (List Byte) → List Byte
  | [] => []
  | p :: ps => full 65536 p ++ pieces ps

private theorem full_length {n : Nat} {l : List Byte} (h : l.length ≤ n) : (full n l).length = n := by
  unfold full; rw [List.length_append, List.length_replicate]; omega

private theorem at_left {a b : List Byte} {o n : Nat} (h : o + n ≤ a.length) : Spec.bytesAt (a ++ b) o n = Spec.bytesAt a o n := by
  unfold Spec.bytesAt
  rw [List.drop_append_of_le_length (by omega), List.take_append_of_le_length (by rw [List.length_drop]; omega)]

private theorem at_right {a b : List Byte} {k o n : Nat} (h : a.length = k) : Spec.bytesAt (a ++ b) (k + o) n = Spec.bytesAt b o n := by
  unfold Spec.bytesAt
  rw [← h, List.drop_append, List.drop_of_length_le (by omega), Nat.add_sub_cancel_left, List.nil_append]

private theorem at_full {m : Nat} {l : List Byte} {o n : Nat} (h : o + n ≤ l.length) : Spec.bytesAt (full m l) o n = Spec.bytesAt l o n := at_left h

private theorem pieces_length (ps : List (List Byte)) (h : ∀ p ∈ ps, p.length ≤ 65536) : (pieces ps).length = 65536 * ps.length := by
  induction ps with
  | nil => rfl
  | cons p ps ih =>
    rw [pieces, List.length_append, full_length (h p (by simp)), ih fun q hq => h q (by simp [hq]), List.length_cons]; omega

private theorem at_piece (ps : List (List Byte)) (h : ∀ p ∈ ps, p.length ≤ 65536) (i : Nat) {p : List Byte} (hi : ps[i]? = some p) {pos o n : Nat}
    (hpos : pos = 65536 * i + o) (ho : o + n ≤ p.length) : Spec.bytesAt (pieces ps) pos n = Spec.bytesAt p o n := by
  subst hpos
  induction ps generalizing i with
  | nil => simp at hi
  | cons q ps ih =>
    rw [pieces]
    cases i with
    | zero =>
      rw [List.getElem?_cons_zero, Option.some.injEq] at hi
      subst hi
      rw [Nat.mul_zero, Nat.zero_add, at_left (by rw [full_length (h _ (by simp))]; have := h _ (List.mem_cons_self (a := q) (l := ps)); omega), at_full ho]
    | succ i =>
      rw [List.getElem?_cons_succ] at hi
      rw [show 65536 * (i + 1) + o = 65536 + (65536 * i + o) by omega, at_right (full_length (h _ (by simp)))]
      exact ih (fun q hq => h q (by simp [hq])) i hi

private theorem field_piece (ps : List (List Byte)) (h : ∀ p ∈ ps, p.length ≤ 65536) (i : Nat) {p : List Byte} (hi : ps[i]? = some p) {pos o n : Nat}
    (hpos : pos = 65536 * i + o) (ho : o + n ≤ p.length) : Spec.field (pieces ps) pos n = Spec.field p o n := by
  unfold Spec.field; rw [at_piece ps h i hi hpos ho]

private theorem last_piece (ps : List (List Byte)) (h : ∀ p ∈ ps, p.length ≤ 65536) (i : Nat) {p : List Byte} (hi : ps[i]? = some p) {pos o n : Nat} {id : List Byte}
    (hpos : pos = 65536 * i + o) (ho : o + 32 * n ≤ p.length) : lastEntry (pieces ps) pos n id = lastEntry p o n id := by
  unfold lastEntry
  congr 2
  refine List.map_congr_left fun j hj => ?_
  rw [List.mem_range] at hj
  exact at_piece ps h i hi (by omega) (by omega)

/-- A structure with its checksum. -/
private def sealed (sig rest : List Byte) : List Byte :=
  sig ++ leBytes 4 (crc32Reflected 0x82f63b78#32 0#32 (sig ++ List.replicate 4 0#8 ++ rest)).toNat ++ rest

private theorem sealed_length {sig rest : List Byte} : (sealed sig rest).length = sig.length + 4 + rest.length := by
  unfold sealed; simp; omega

private theorem at_sealed {sig rest : List Byte} (hs : sig.length = 4) {o n : Nat} : Spec.bytesAt (sealed sig rest) (8 + o) n = Spec.bytesAt rest o n := by
  unfold sealed; exact at_right (by simp [hs])

private theorem sealed_ok {sig rest : List Byte} (hs : sig.length = 4) : Checksum false (sealed sig rest) := by
  left
  have h1 : Spec.bytesAt (sealed sig rest) 4 4 = leBytes 4 (crc32Reflected 0x82f63b78#32 0#32 (sig ++ List.replicate 4 0#8 ++ rest)).toNat := by
    unfold sealed
    rw [List.append_assoc]
    refine (at_right (k := 4) (o := 0) hs).trans ?_
    rw [at_left (by simp)]
    unfold Spec.bytesAt
    rw [List.drop_zero, List.take_of_length_le (by simp)]
  have h2 : Spec.bytesAt (sealed sig rest) 0 4 = sig := by
    unfold sealed
    rw [List.append_assoc, at_left (by omega)]
    unfold Spec.bytesAt
    rw [List.drop_zero, List.take_of_length_le (by omega)]
  have h3 : (sealed sig rest).drop 8 = rest := by
    unfold sealed
    rw [List.drop_append, List.drop_of_length_le (by simp; omega)]
    simp [hs]
  unfold Spec.field
  rw [h1, h2, h3, leNat_leBytes]
  exact Nat.mod_eq_of_lt (BitVec.isLt _)

/-- A header with a sequence number, and with a log if `log` is not 0. -/
private def header70 (number log : Byte) : List Byte :=
  sealed (ascii "head") (full 4088 ([number, 0#8, 0#8, 0#8, 0#8, 0#8, 0#8, 0#8] ++ List.replicate 16 1#8 ++ guidBytes ((List.range 16).map (BitVec.ofNat 8)) ++
    List.replicate 16 log ++ [0#8, 0#8, 1#8, 0#8]))

/-- The regions: two entries. -/
private def regionEntries70 : List Byte :=
  [2#8, 0#8, 0#8, 0#8, 0#8, 0#8, 0#8, 0#8] ++ metadataRegion ++ leBytes 8 327680 ++ leBytes 4 131072 ++ [1#8, 0#8, 0#8, 0#8] ++
    batRegion ++ leBytes 8 458752 ++ leBytes 4 32776 ++ [1#8, 0#8, 0#8, 0#8]
private def regions70 : List Byte := sealed (ascii "regi") (full 65528 regionEntries70)

private def itemEntry70 (id : List Byte) (offset size : Nat) : List Byte := id ++ leBytes 4 offset ++ leBytes 4 size ++ List.replicate 8 0#8

private def items70 : List Byte :=
  ascii "metadata" ++ [0#8, 0#8, 6#8, 0#8] ++ List.replicate 20 0#8 ++ itemEntry70 parametersItem 65536 8 ++ itemEntry70 diskSizeItem 65544 8 ++
    itemEntry70 logicalItem 65552 4 ++ itemEntry70 physicalItem 65556 4 ++ itemEntry70 diskIdItem 65560 16 ++ itemEntry70 locatorItem 65576 190

/-- A text in units of 16 bits. -/
private def wide (s : String) : List Byte := s.toList.flatMap fun c => leBytes 2 c.toNat

/-- Locators of the parent, with the sizes of the second and of the first key. -/
private def locator70 (size : Nat) (first : Nat := 28) : List Byte :=
  locatorKind ++ [0#8, 0#8, 2#8, 0#8] ++ leBytes 4 44 ++ leBytes 4 72 ++ leBytes 2 first ++ leBytes 2 76 ++
    leBytes 4 148 ++ leBytes 4 174 ++ leBytes 2 size ++ leBytes 2 16 ++
    wide "parent_linkage" ++ wide "{12345678-9abc-def0-0123-456789ABCDEF}" ++ wide "relative_path" ++ wide ".\\a.vhdx"

/-- The values of the items: blocks of 1 MiB, a parent, 1000 bytes, and sectors of 512. -/
private def values70 (size : Nat) (first : Nat := 28) : List Byte :=
  leBytes 4 1048576 ++ leBytes 4 2 ++ leBytes 8 1000 ++ leBytes 4 512 ++ leBytes 4 4096 ++ List.replicate 16 7#8 ++ locator70 size first

/-- The pieces of a file, with the headers, the second region table, the metadata table, and the values. Its only block is at the start of the file. -/
private def list70 (h1 h2 r2 m v : List Byte) : List (List Byte) :=
  [ascii "vhdxfile", h1, h2, regions70, r2, m, v, 6#8 :: List.replicate 32775 0#8]

private def file70 (h1 h2 r2 m v : List Byte) : List Byte := pieces (list70 h1 h2 r2 m v)

private theorem last_eq {f g : List Byte} {o o' n : Nat} {id : List Byte} (h : ∀ i, i < n → Spec.bytesAt f (o + 32 * i) 32 = Spec.bytesAt g (o' + 32 * i) 32) :
    lastEntry f o n id = lastEntry g o' n id := by
  unfold lastEntry
  congr 2
  exact List.map_congr_left fun j hj => h j (List.mem_range.1 hj)

private theorem regionEntries70_length : regionEntries70.length = 72 := by decide +kernel

private theorem full_big {n : Nat} {l : List Byte} : (full n l).length = max n l.length := by
  unfold full; rw [List.length_append, List.length_replicate]; omega

private theorem regions70_length : regions70.length = 65536 := by
  unfold regions70
  rw [sealed_length, full_length (by rw [regionEntries70_length]; omega)]; rfl

private theorem at_regions70 {o n : Nat} (h : o + n ≤ 72) : Spec.bytesAt regions70 (8 + o) n = Spec.bytesAt regionEntries70 o n := by
  unfold regions70
  rw [at_sealed (by rfl), at_full (by rw [regionEntries70_length]; exact h)]

/-- What the pieces need. -/
private structure Small (h1 h2 r2 m v : List Byte) : Prop where
  h1 : h1.length ≤ 65536
  h2 : h2.length ≤ 65536
  r2 : r2.length ≤ 65536
  m : m.length ≤ 65536
  v : v.length ≤ 65536

section
variable {h1 h2 r2 m v : List Byte} (hs : Small h1 h2 r2 m v)
include hs

private theorem list70_small : ∀ p ∈ list70 h1 h2 r2 m v, p.length ≤ 65536 := by
  intro p hp
  unfold list70 at hp
  simp only [List.mem_cons, List.not_mem_nil, or_false] at hp
  rcases hp with rfl | rfl | rfl | rfl | rfl | rfl | rfl | rfl
  · decide +kernel
  · exact hs.h1
  · exact hs.h2
  · rw [regions70_length]
  · exact hs.r2
  · exact hs.m
  · exact hs.v
  · rw [List.length_cons, List.length_replicate]; decide

private theorem file70_length : (file70 h1 h2 r2 m v).length = 524288 := by
  unfold file70; rw [pieces_length _ (list70_small hs)]; rfl

private theorem at70 (i : Nat) {p : List Byte} (hi : (list70 h1 h2 r2 m v)[i]? = some p) {pos o n : Nat}
    (hpos : pos = 65536 * i + o) (ho : o + n ≤ p.length) : Spec.bytesAt (file70 h1 h2 r2 m v) pos n = Spec.bytesAt p o n :=
  at_piece _ (list70_small hs) i hi hpos ho

private theorem field70 (i : Nat) {p : List Byte} (hi : (list70 h1 h2 r2 m v)[i]? = some p) {pos o n : Nat}
    (hpos : pos = 65536 * i + o) (ho : o + n ≤ p.length) : Spec.field (file70 h1 h2 r2 m v) pos n = Spec.field p o n := by
  unfold Spec.field; rw [at70 hs i hi hpos ho]

private theorem region70 (id : List Byte) : region (file70 h1 h2 r2 m v) id =
    (lastEntry regionEntries70 8 2 id).map fun e => (Spec.field e 16 8, Spec.field e 24 4) := by
  unfold region
  have h : Spec.field (file70 h1 h2 r2 m v) (regions1 + 8) 4 = 2 := by
    rw [field70 hs 3 (o := 8) rfl (by rfl) (by rw [regions70_length]; omega)]
    unfold Spec.field
    rw [at_regions70 (o := 0) (by omega)]
    decide +kernel
  rw [h, last_eq (o' := 8) (g := regionEntries70) fun i hi => ?_]
  rw [at70 hs 3 (o := 16 + 32 * i) rfl (by rw [regions1]; omega) (by rw [regions70_length]; omega), show 16 + 32 * i = 8 + (8 + 32 * i) by omega,
    at_regions70 (by omega)]

private theorem metadata70 : region (file70 h1 h2 r2 m v) metadataRegion = some (327680, 131072) := by rw [region70 hs]; decide +kernel
private theorem bat70 : region (file70 h1 h2 r2 m v) batRegion = some (458752, 32776) := by rw [region70 hs]; decide +kernel
private theorem base70 : base (file70 h1 h2 r2 m v) = 327680 := by unfold base; rw [metadata70 hs]; rfl

private theorem regions1_70 (lax : Bool) : RegionsOk (file70 h1 h2 r2 m v) lax regions1 := by
  have hb : Spec.bytesAt (file70 h1 h2 r2 m v) regions1 65536 = regions70 := by
    rw [at70 hs 3 (o := 0) rfl (by rfl) (by rw [regions70_length])]
    unfold Spec.bytesAt
    rw [List.drop_zero, List.take_of_length_le (by rw [regions70_length])]
  refine ⟨by rw [file70_length hs, regions1]; omega, ?_, ?_, ?_⟩
  · rw [at70 hs 3 (o := 0) rfl (by rfl) (by rw [regions70_length]; omega)]
    unfold regions70 sealed
    rw [List.append_assoc, at_left (by decide +kernel)]
    decide +kernel
  · rw [hb]
    rcases sealed_ok (sig := ascii "regi") (rest := full 65528 regionEntries70) (by rfl) with h | h
    · exact Or.inl h
    · exact absurd h.1 (by simp)
  · have h : Spec.field (file70 h1 h2 r2 m v) (regions1 + 8) 4 = 2 := by
      rw [field70 hs 3 (o := 8) rfl (by rfl) (by rw [regions70_length]; omega)]
      unfold Spec.field
      rw [at_regions70 (o := 0) (by omega)]
      decide +kernel
    omega

end

private theorem items70_length : items70.length = 224 := by decide +kernel
private theorem values70_length (n k : Nat) : (values70 n k).length = 230 := by
  unfold values70 locator70
  simp [leBytes_length, wide, locatorKind, guid, guidBytes]

section
variable {h1 h2 r2 v : List Byte} (hs : Small h1 h2 r2 items70 v)
include hs

private theorem count70 : items (file70 h1 h2 r2 items70 v) = 6 := by
  unfold items
  rw [base70 hs, field70 hs 5 (o := 10) rfl (by rfl) (by rw [items70_length]; omega)]
  decide +kernel

private theorem item70 (id : List Byte) : item (file70 h1 h2 r2 items70 v) id =
    (lastEntry items70 32 6 id).map fun e => (327680 + Spec.field e 16 4, Spec.field e 20 4) := by
  unfold item
  rw [count70 hs, base70 hs, last_eq (o' := 32) (g := items70) fun i hi => ?_]
  rw [at70 hs 5 (o := 32 + 32 * i) rfl (by omega) (by rw [items70_length]; omega)]

end

private theorem header70_length (n log : Byte) : (header70 n log).length = 4096 := by
  unfold header70
  rw [sealed_length, full_length (by simp [guidBytes])]; rfl

private theorem small70 (n k log : Byte) (size : Nat) (first : Nat := 28) : Small (header70 n log) (header70 k log) regions70 items70 (values70 size first) := by
  refine ⟨?_, ?_, ?_, ?_, ?_⟩
  · rw [header70_length]; omega
  · rw [header70_length]; omega
  · rw [regions70_length]
  · rw [items70_length]; omega
  · rw [values70_length]; omega

private theorem headerOk70 (file : List Byte) (pos : Nat) (n log : Byte) (h : Spec.bytesAt file pos 4096 = header70 n log) (lax : Bool) (hl : pos + 4096 ≤ file.length) :
    HeaderOk file lax pos := by
  refine ⟨hl, ?_, ?_⟩
  · rw [show Spec.bytesAt file pos 4 = Spec.bytesAt (Spec.bytesAt file pos 4096) 0 4 by rw [bytesAt_bytesAt (by omega)]; rfl, h]
    unfold header70 sealed
    rw [List.append_assoc, at_left (by decide +kernel)]
    decide +kernel
  · rw [h]
    rcases sealed_ok (sig := ascii "head") (by rfl) with h | h
    · exact Or.inl h
    · exact absurd h.1 (by simp)

private theorem whole70 {l : List Byte} {n : Nat} (h : l.length = n) : Spec.bytesAt l 0 n = l := by
  unfold Spec.bytesAt
  rw [List.drop_zero, List.take_of_length_le (by omega)]

private theorem header1_70 {h1 h2 r2 m v : List Byte} (hs : Small h1 h2 r2 m v) {n log : Byte} (h : h1 = header70 n log) (lax : Bool) :
    HeaderOk (file70 h1 h2 r2 m v) lax header1 := by
  have hl : h1.length = 4096 := by rw [h, header70_length]
  refine headerOk70 _ _ n log ?_ lax (by rw [file70_length hs, header1]; omega)
  rw [at70 hs 1 (o := 0) rfl (by rfl) (by omega), whole70 hl, h]

private theorem header2_70 {h1 h2 r2 m v : List Byte} (hs : Small h1 h2 r2 m v) {n log : Byte} (h : h2 = header70 n log) (lax : Bool) :
    HeaderOk (file70 h1 h2 r2 m v) lax header2 := by
  have hl : h2.length = 4096 := by rw [h, header70_length]
  refine headerOk70 _ _ n log ?_ lax (by rw [file70_length hs, header2]; omega)
  rw [at70 hs 2 (o := 0) rfl (by rfl) (by omega), whole70 hl, h]

private theorem regions2_70 {h1 h2 m v : List Byte} (hs : Small h1 h2 regions70 m v) (lax : Bool) : RegionsOk (file70 h1 h2 regions70 m v) lax regions2 := by
  have hb : Spec.bytesAt (file70 h1 h2 regions70 m v) regions2 65536 = Spec.bytesAt (file70 h1 h2 regions70 m v) regions1 65536 := by
    rw [at70 hs 4 (o := 0) rfl (by rfl) (by rw [regions70_length]), at70 hs 3 (o := 0) rfl (by rfl) (by rw [regions70_length])]
  have h := regions1_70 hs lax
  refine ⟨by rw [file70_length hs, regions2]; omega, ?_, by rw [hb]; exact h.checksum, ?_⟩
  · rw [at70 hs 4 (o := 0) rfl (by rfl) (by rw [regions70_length]; omega), ← h.signature,
      at70 hs 3 (o := 0) rfl (by rfl) (by rw [regions70_length]; omega)]
  · have := h.number
    rwa [field70 hs 4 (o := 8) rfl (by rfl) (by rw [regions70_length]; omega), ← field70 hs 3 (pos := regions1 + 8) (o := 8) rfl (by rfl) (by rw [regions70_length]; omega)]

section
variable {h1 h2 r2 : List Byte} {size first : Nat} (hs : Small h1 h2 r2 items70 (values70 size first))
include hs

private theorem value70 (o n : Nat) (h : o + n ≤ 40) : Spec.field (file70 h1 h2 r2 items70 (values70 size first)) (393216 + o) n = Spec.field (values70 26) o n := by
  rw [field70 hs 6 (o := o) rfl (by omega) (by rw [values70_length]; omega)]
  unfold Spec.field values70
  rw [at_left, at_left (b := locator70 26)]
  all_goals
    simp only [List.length_append, leBytes_length, List.length_replicate]
    omega

private theorem itemValue70 (id : List Byte) (o s n a : Nat) (hi : (lastEntry items70 32 6 id).map (fun e => (327680 + Spec.field e 16 4, Spec.field e 20 4)) = some (393216 + o, s))
    (h : o + a + n ≤ 40) : itemValue (file70 h1 h2 r2 items70 (values70 size first)) id a n = Spec.field (values70 26) (o + a) n := by
  unfold itemValue
  rw [item70 hs, hi]
  show Spec.field _ (393216 + o + a) n = _
  rw [Nat.add_assoc, value70 hs _ _ h]

private theorem locatorAt70 : Spec.bytesAt (file70 h1 h2 r2 items70 (values70 size first)) 393256 190 = locator70 size first := by
  rw [at70 hs 6 (o := 40) rfl (by rfl) (by rw [values70_length])]
  unfold values70
  refine (at_right (k := 40) (o := 0) ?_).trans (whole70 ?_)
  · simp only [List.length_append, leBytes_length, List.length_replicate]
  · unfold locator70
    simp [leBytes_length, wide, locatorKind, guid, guidBytes]

private theorem locator70_eq : VhdxFile.locator (file70 h1 h2 r2 items70 (values70 size first)) = some (locator70 size first) := by
  unfold VhdxFile.locator
  rw [item70 hs, show (lastEntry items70 32 6 locatorItem).map (fun e => (327680 + Spec.field e 16 4, Spec.field e 20 4)) = some (393256, 190) by decide +kernel]
  show some (Spec.bytesAt _ 393256 190) = _
  rw [locatorAt70 hs]

end

private instance {d : List Byte} {p : Nat × Nat} : Decidable (PlaceOk d p) := by unfold PlaceOk; infer_instance

private theorem locatorOk70 : LocatorOk (locator70 26) := by
  refine ⟨by decide +kernel, by decide +kernel, fun i hi => ?_⟩
  have h : Spec.field (locator70 26) 18 2 = 2 := by decide +kernel
  rw [h] at hi
  exact (by decide +kernel : ∀ i, i < 2 → 20 + 12 * (i + 1) ≤ (locator70 26).length ∧ PlaceOk (locator70 26) (keyPlace (locator70 26) i) ∧
    PlaceOk (locator70 26) (valuePlace (locator70 26) i)) i hi

private theorem contents70 {h1 h2 r2 : List Byte} {size first : Nat} (hs : Small h1 h2 r2 items70 (values70 size first)) (hlo : LocatorOk (locator70 size first) := by exact locatorOk70) :
    Contents (file70 h1 h2 r2 items70 (values70 size first)) where
  signature := by
    rw [at70 hs 0 (o := 0) rfl (by rfl) (by decide +kernel)]; decide +kernel
  metadata := ⟨_, _, metadata70 hs, by omega, by rw [file70_length hs]; omega, by
    rw [at70 hs 5 (o := 0) rfl (by rfl) (by rw [items70_length]; omega)]; decide +kernel⟩
  offsets := fun i hi => by
    rw [count70 hs] at hi
    rw [base70 hs, field70 hs 5 (o := 48 + 32 * i) rfl (by omega) (by rw [items70_length]; omega)]
    exact (by decide +kernel : ∀ i, i < 6 → 65536 ≤ Spec.field items70 (48 + 32 * i) 4) i hi
  parameters := ⟨393216, by rw [item70 hs]; decide +kernel⟩
  blockSize := by
    unfold VhdxFile.blockSize
    rw [itemValue70 hs _ 0 8 4 0 (by decide +kernel) (by omega)]; decide +kernel
  diskSize := ⟨393224, by rw [item70 hs]; decide +kernel⟩
  logical := ⟨393232, by rw [item70 hs]; decide +kernel⟩
  sectorSize := by
    unfold VhdxFile.sectorSize
    rw [itemValue70 hs _ 16 4 4 0 (by decide +kernel) (by omega)]; decide +kernel
  physical := fun o n h => by
    rw [item70 hs, show (lastEntry items70 32 6 physicalItem).map (fun e => (327680 + Spec.field e 16 4, Spec.field e 20 4)) = some (393236, 4) by decide +kernel] at h
    cases h
    rw [value70 hs 20 4 (by omega)]; decide +kernel
  diskId := ⟨393240, by rw [item70 hs]; decide +kernel⟩
  locator := fun o n h => by
    rw [item70 hs, show (lastEntry items70 32 6 locatorItem).map (fun e => (327680 + Spec.field e 16 4, Spec.field e 20 4)) = some (393256, 190) by decide +kernel] at h
    cases h
    rw [locatorAt70 hs, file70_length hs]
    exact ⟨by omega, hlo⟩
  table := ⟨_, _, bat70 hs, by
    unfold VhdxFile.blockSize mediaSize
    rw [itemValue70 hs _ 0 8 4 0 (by decide +kernel) (by omega), itemValue70 hs _ 8 8 8 0 (by decide +kernel) (by omega)]; decide +kernel⟩

private theorem parentValue70 {h1 h2 r2 : List Byte} (hs : Small h1 h2 r2 items70 (values70 26)) (key : String) :
    parentValue (file70 h1 h2 r2 items70 (values70 26)) key = ((pairs (locator70 26)).reverse.find? fun p => p.1 = key.toList.map Char.toNat).map Prod.snd := by
  unfold parentValue; rw [locator70_eq hs]; rfl

private theorem texts70 {h1 h2 r2 : List Byte} (hs : Small h1 h2 r2 items70 (values70 26)) : Texts (file70 h1 h2 r2 items70 (values70 26)) where
  even := fun d hd i hi => by
    rw [locator70_eq hs] at hd
    cases hd
    have h : Spec.field (locator70 26) 18 2 = 2 := by decide +kernel
    rw [h] at hi
    exact (by decide +kernel : ∀ i, i < 2 → (keyPlace (locator70 26) i).2 % 2 = 0 ∧ (valuePlace (locator70 26) i).2 % 2 = 0) i hi
  linkage := fun s h => by
    rw [parentValue70 hs] at h
    refine ⟨ascii "12345678-9abc-def0-0123-456789ABCDEF", ?_, ?_⟩
    · unfold isUuidText; decide +kernel
    · rw [← Option.some.injEq, ← h]; decide +kernel

/-- A file with everything that is needed. -/
private theorem valid70 : Valid (file70 (header70 1#8 0#8) (header70 2#8 0#8) regions70 items70 (values70 26)) false :=
  ⟨contents70 (small70 ..), header1_70 (small70 ..) rfl _, header2_70 (small70 ..) rfl _, regions1_70 (small70 ..) _, regions2_70 (small70 ..) _⟩

private theorem disk70_of {file : List Byte} (h1 : VhdxFile.blockSize file = 2 ^ 20) (h2 : VhdxFile.sectorSize file = 512) (h3 : mediaSize file = 1000) (h4 : flags file = 2)
    (h5 : region file batRegion = some (458752, 32776)) : disk70 file = ⟨2 ^ 20, 512, 1000, 458752, 4097, true⟩ := by
  unfold disk70
  rw [h1, h2, h3, h4, h5]
  rfl

/-- What is shown of the file, for a file of which the values are known. -/
private theorem found70 (file : List Byte) (hl : file.length = 524288) (hc : items file = 6) (hv : Valid file true) (ht : Texts file)
    (hp : ∀ key : String, parentValue file key = ((pairs (locator70 26)).reverse.find? fun p => p.1 = key.toList.map Char.toNat).map Prod.snd)
    (hfl : flags file = 2) (hm : mediaSize file = 1000) (hd : disk70 file = ⟨2 ^ 20, 512, 1000, 458752, 4097, true⟩)
    (he : ∀ i, i < 4097 → Spec.Vhdx.entry ⟨2 ^ 20, 512, 1000, 458752, 4097, true⟩ file i = if i = 0 then 6 else 0) :
    ∃ (parent : Option (List Byte)) , file.length < 2 ^ 63 ∧ items file ≤ 2047 ∧ Texts file ∧ Valid file true ∧
    VhdxFile.parentName file = some ([0x2e, 0x5c, 0x61] ++ (ascii ".vhdx").map BitVec.toNat) ∧ (∃ s t, parentValue file "parent_linkage" = some s ∧ Braced s t) ∧
    Spec.Vhdx.Valid (disk70 file) ∧ flags file % 4 = 2 ∧
    Spec.Vhdx.StatesOk (disk70 file) file ∧ Spec.Vhdx.Whole (disk70 file) file ∧ Spec.Vhdx.TableInside (disk70 file) file ∧
    Spec.Vhdx.PlacesBelow (disk70 file) file ∧ LayeredInside file (parent.getD []) (Spec.Vhdx.source (disk70 file) file) (mediaSize file) := by
  refine ⟨some (List.replicate 2000 1#8), by omega, by omega, ht, hv, ?_, ?_, ?_⟩
  · unfold VhdxFile.parentName; rw [hp, hp, hp]; decide +kernel
  · have : ∃ s, parentValue file "parent_linkage" = some s := by rw [hp]; exact ⟨_, rfl⟩
    obtain ⟨s, h⟩ := this
    exact ⟨s, let ⟨t, k⟩ := ht.linkage s h; ⟨t, h, k⟩⟩
  rw [hd, hm, hfl]
  have hu : ∀ b, Spec.Vhdx.Used ⟨2 ^ 20, 512, 1000, 458752, 4097, true⟩ b → b = 0 := by
    intro b hb
    have : b * 2 ^ 20 < 1000 := hb
    omega
  refine ⟨⟨⟨20, by omega, by omega, rfl⟩, Or.inl rfl, by decide, by decide⟩, rfl, ?_, ?_, ⟨by rw [hl]; decide, ?_⟩, ?_, ?_⟩
  · intro b hb
    rw [hu b hb, if_pos rfl]
    left
    unfold Spec.Vhdx.state
    rw [he _ (by decide)]; rfl
  · intro b hb h7
    rw [hu b hb] at h7
    unfold Spec.Vhdx.state at h7
    rw [he _ (by decide)] at h7
    exact absurd h7 (by decide)
  · intro b hb
    rw [hu b hb]
    refine ⟨by decide, fun _ => ⟨by decide, ?_⟩⟩
    unfold Spec.Vhdx.bitmapPlace Spec.Vhdx.place
    rw [he _ (by decide), hl]; decide
  · intro i hi
    unfold Spec.Vhdx.place
    rw [he _ hi]
    show (if i = 0 then 6 else 0) / 2 ^ 20 * 2 ^ 20 + 2 ^ 20 < 2 ^ 64
    split <;> decide
  · intro x hx
    have hx : x < 1000 := hx
    unfold Spec.Vhdx.source
    have h0 : Spec.Vhdx.blockIndex ⟨2 ^ 20, 512, 1000, 458752, 4097, true⟩ (x / 2 ^ 20) = 0 := by rw [Nat.div_eq_of_lt (by omega)]; decide
    simp only [h0]
    unfold Spec.Vhdx.state Spec.Vhdx.place
    rw [he 0 (by decide)]
    show 6 / 2 ^ 20 * 2 ^ 20 + x % 2 ^ 20 < file.length
    omega

/-- The parent of the file has 2000 bytes. -/
example : ∃ (file : List Byte) (parent : Option (List Byte)), file.length < 2 ^ 63 ∧ items file ≤ 2047 ∧ Texts file ∧ Valid file true ∧
    VhdxFile.parentName file = some ([0x2e, 0x5c, 0x61] ++ (ascii ".vhdx").map BitVec.toNat) ∧ (∃ s t, parentValue file "parent_linkage" = some s ∧ Braced s t) ∧
    Spec.Vhdx.Valid (disk70 file) ∧ flags file % 4 = 2 ∧
    Spec.Vhdx.StatesOk (disk70 file) file ∧ Spec.Vhdx.Whole (disk70 file) file ∧ Spec.Vhdx.TableInside (disk70 file) file ∧
    Spec.Vhdx.PlacesBelow (disk70 file) file ∧ LayeredInside file (parent.getD []) (Spec.Vhdx.source (disk70 file) file) (mediaSize file) := by
  have hs := small70 1#8 2#8 0#8 26
  have hv : Valid _ true := ⟨valid70.contents, header1_70 hs rfl _, header2_70 hs rfl _, regions1_70 hs _, regions2_70 hs _⟩
  have hfl : flags (file70 (header70 1#8 0#8) (header70 2#8 0#8) regions70 items70 (values70 26)) = 2 := by
    unfold flags; rw [itemValue70 hs _ 0 8 4 4 (by decide +kernel) (by omega)]; decide +kernel
  have hm : mediaSize (file70 (header70 1#8 0#8) (header70 2#8 0#8) regions70 items70 (values70 26)) = 1000 := by
    unfold mediaSize; rw [itemValue70 hs _ 8 8 8 0 (by decide +kernel) (by omega)]; decide +kernel
  have he : ∀ i, i < 4097 → Spec.Vhdx.entry ⟨2 ^ 20, 512, 1000, 458752, 4097, true⟩
      (file70 (header70 1#8 0#8) (header70 2#8 0#8) regions70 items70 (values70 26)) i = if i = 0 then 6 else 0 := by
    intro i hi
    show Spec.field _ (458752 + i * 8) 8 = _
    rw [field70 hs 7 (o := i * 8) rfl (by omega) (by rw [List.length_cons, List.length_replicate]; omega)]
    unfold Spec.field Spec.bytesAt
    by_cases h0 : i = 0
    · subst h0
      rw [Nat.zero_mul, List.drop_zero, List.take_succ_cons, List.take_replicate]
      decide
    · rw [if_neg h0, show i * 8 = (i * 8 - 1) + 1 by omega, List.drop_succ_cons, List.drop_replicate, List.take_replicate]
      exact Vhdx.leNat_zeros _
  have hb : VhdxFile.blockSize (file70 (header70 1#8 0#8) (header70 2#8 0#8) regions70 items70 (values70 26)) = 2 ^ 20 := by
    unfold VhdxFile.blockSize; rw [itemValue70 hs _ 0 8 4 0 (by decide +kernel) (by omega)]; decide +kernel
  have hse : VhdxFile.sectorSize (file70 (header70 1#8 0#8) (header70 2#8 0#8) regions70 items70 (values70 26)) = 512 := by
    unfold VhdxFile.sectorSize; rw [itemValue70 hs _ 16 4 4 0 (by decide +kernel) (by omega)]; decide +kernel
  exact ⟨_, found70 _ (file70_length hs) (count70 hs) hv (texts70 hs) (parentValue70 hs) hfl hm (disk70_of hb hse hm hfl (bat70 hs)) he⟩

private theorem locatorOk70b : LocatorOk (locator70 26 26) := by
  refine ⟨by decide +kernel, by decide +kernel, fun i hi => ?_⟩
  have h : Spec.field (locator70 26 26) 18 2 = 2 := by decide +kernel
  rw [h] at hi
  exact (by decide +kernel : ∀ i, i < 2 → 20 + 12 * (i + 1) ≤ (locator70 26 26).length ∧ PlaceOk (locator70 26 26) (keyPlace (locator70 26 26) i) ∧
    PlaceOk (locator70 26 26) (valuePlace (locator70 26 26) i)) i hi

/-- A file without the identifier of a parent, and one with it that names its parent "a.vhdx". -/
theorem files70 : (∃ file : List Byte, ∃ v, Vhdx.openFile file = .ok v ∧ v.parentIdentifier = none ∧
      v.parentName = some ([0x2e, 0x5c, 0x61] ++ (ascii ".vhdx").map BitVec.toNat)) ∧
    ∃ file : List Byte, ∃ v u, Vhdx.openFile file = .ok v ∧ v.parentIdentifier = some u ∧
      v.parentName = some ([0x2e, 0x5c, 0x61] ++ (ascii ".vhdx").map BitVec.toNat) := by
  refine ⟨⟨file70 (header70 1#8 0#8) (header70 2#8 0#8) regions70 items70 (values70 26 26), ?_⟩,
    ⟨file70 (header70 1#8 0#8) (header70 2#8 0#8) regions70 items70 (values70 26), ?_⟩⟩
  · have hs := small70 1#8 2#8 0#8 26 26
    have hp (key : String) : parentValue (file70 (header70 1#8 0#8) (header70 2#8 0#8) regions70 items70 (values70 26 26)) key =
        ((pairs (locator70 26 26)).reverse.find? fun p => p.1 = key.toList.map Char.toNat).map Prod.snd := by
      unfold parentValue; rw [locator70_eq hs]; rfl
    have hl : parentValue (file70 (header70 1#8 0#8) (header70 2#8 0#8) regions70 items70 (values70 26 26)) "parent_linkage" = none := by
      rw [hp]; decide +kernel
    have ht : Texts (file70 (header70 1#8 0#8) (header70 2#8 0#8) regions70 items70 (values70 26 26)) := by
      refine ⟨fun d hd i hi => ?_, fun s h => ?_⟩
      · rw [locator70_eq hs] at hd
        cases hd
        have h : Spec.field (locator70 26 26) 18 2 = 2 := by decide +kernel
        rw [h] at hi
        exact (by decide +kernel : ∀ i, i < 2 → (keyPlace (locator70 26 26) i).2 % 2 = 0 ∧ (valuePlace (locator70 26 26) i).2 % 2 = 0) i hi
      · rw [hl] at h
        cases h
    have hg := C70_open_partial _ (by rw [file70_length hs]; omega) (by rw [count70 hs]; omega) ht
    obtain ⟨v, hv⟩ := hg.2.1.2 ⟨contents70 hs locatorOk70b, header1_70 hs rfl _, header2_70 hs rfl _, regions1_70 hs _, regions2_70 hs _⟩
    have hr := hg.2.2 v hv
    refine ⟨v, hv, hr.noParent hl, ?_⟩
    rw [hr.parentName]
    unfold VhdxFile.parentName; rw [hp, hp, hp]; decide +kernel
  · have hs := small70 1#8 2#8 0#8 26
    have hg := C70_open_partial _ (by rw [file70_length hs]; omega) (by rw [count70 hs]; omega) (texts70 hs)
    obtain ⟨v, hv⟩ := hg.2.1.2 ⟨contents70 hs, header1_70 hs rfl _, header2_70 hs rfl _, regions1_70 hs _, regions2_70 hs _⟩
    have hr := hg.2.2 v hv
    have : ∃ s, parentValue (file70 (header70 1#8 0#8) (header70 2#8 0#8) regions70 items70 (values70 26)) "parent_linkage" = some s := by
      rw [parentValue70 hs]; exact ⟨_, rfl⟩
    obtain ⟨s, h⟩ := this
    obtain ⟨t, k⟩ := (texts70 hs).linkage s h
    obtain ⟨u, hu, -⟩ := hr.parent s t h k
    refine ⟨v, u, hv, hu, ?_⟩
    rw [hr.parentName]
    unfold VhdxFile.parentName; rw [parentValue70 hs, parentValue70 hs, parentValue70 hs]; decide +kernel

/-! ## Where the code does not do what a user relies on -/

private theorem ok_or_err {α : Type} {c : Prop} {x : R α} {P : α → Prop} (h : R.Good c x P) : (∃ a, x = .ok a ∧ P a) ∨ x = .err := by
  match x, h with
  | .ok a, h => exact Or.inl ⟨a, rfl, h.of_ok rfl⟩
  | .err, _ => exact Or.inr rfl
  | .panic, h => exact absurd rfl h.ne_panic

/-- A file is refused if one copy of the header or of the region table is damaged. -/
private theorem refused70 (file : List Byte)
    (h : ¬ HeaderOk file true header1 ∨ ¬ HeaderOk file true header2 ∨ ¬ RegionsOk file true regions1 ∨ ¬ RegionsOk file true regions2) : Vhdx.openFile file = .err := by
  unfold Vhdx.openFile
  rcases ok_or_err (Vhdx.readFileHeader_good file) with ⟨_, e, -⟩ | e <;> rw [e]
  swap
  · rfl
  rw [R.ok_bind]
  rcases ok_or_err (Vhdx.readImageHeader_good file 65536) with ⟨_, e, k1, -⟩ | e <;> rw [e]
  swap
  · rfl
  rw [R.ok_bind]
  rcases ok_or_err (Vhdx.readImageHeader_good file 131072) with ⟨_, e, k2, -⟩ | e <;> rw [e]
  swap
  · rfl
  rw [R.ok_bind]
  rcases ok_or_err (Vhdx.readRegions_good file 196608) with ⟨_, e, k3, -⟩ | e <;> rw [e]
  swap
  · rfl
  rw [R.ok_bind]
  rcases ok_or_err (Vhdx.readRegions_good file 262144) with ⟨_, e, k4, -⟩ | e <;> rw [e]
  swap
  · rfl
  rcases h with h | h | h | h
  · exact absurd k1 h
  · exact absurd k2 h
  · exact absurd k3 h
  · exact absurd k4 h

/-- A file with one good copy of the header is refused: what a crash while a header is written leaves cannot be read. -/
theorem C70_violated_header : (∀ file, ¬ HeaderOk file true header1 ∨ ¬ HeaderOk file true header2 → Vhdx.openFile file = .err) ∧
    ∃ file : List Byte, Contents file ∧ ¬ HeaderOk file true header1 ∧ HeaderOk file false header2 ∧ RegionsOk file false regions1 ∧ RegionsOk file false regions2 := by
  refine ⟨fun file h => refused70 file (by rcases h with h | h <;> simp [h]), file70 (List.replicate 8 0#8) (header70 2#8 0#8) regions70 items70 (values70 26), ?_⟩
  have hs : Small (List.replicate 8 0#8) (header70 2#8 0#8) regions70 items70 (values70 26) := { small70 1#8 2#8 0#8 26 with h1 := by decide +kernel }
  refine ⟨contents70 hs, fun h => ?_, header2_70 hs rfl _, regions1_70 hs _, regions2_70 hs _⟩
  have := h.signature
  rw [at70 hs 1 (o := 0) rfl (by rfl) (by decide +kernel)] at this
  exact absurd this (by decide +kernel)

/-- The same with the region table. -/
theorem C70_violated_regions : (∀ file, ¬ RegionsOk file true regions1 ∨ ¬ RegionsOk file true regions2 → Vhdx.openFile file = .err) ∧
    ∃ file : List Byte, Contents file ∧ HeaderOk file false header1 ∧ HeaderOk file false header2 ∧ RegionsOk file false regions1 ∧ ¬ RegionsOk file true regions2 := by
  refine ⟨fun file h => refused70 file (by rcases h with h | h <;> simp [h]), file70 (header70 1#8 0#8) (header70 2#8 0#8) (List.replicate 8 0#8) items70 (values70 26), ?_⟩
  have hs : Small (header70 1#8 0#8) (header70 2#8 0#8) (List.replicate 8 0#8) items70 (values70 26) := { small70 1#8 2#8 0#8 26 with r2 := by decide +kernel }
  refine ⟨contents70 hs, header1_70 hs rfl _, header2_70 hs rfl _, regions1_70 hs _, fun h => ?_⟩
  have := h.signature
  rw [at70 hs 4 (o := 0) rfl (by rfl) (by decide +kernel)] at this
  exact absurd this (by decide +kernel)

private theorem opened70 {file : List Byte} (hU : file.length < 2 ^ 63) (hn : items file ≤ 2047) (ht : Texts file) (hv : Valid file true) :
    ∃ v, Vhdx.openFile file = .ok v := (C70_open_partial file hU hn ht).2.1.2 hv

/-- A file whose header tells that there is a log to replay first is opened as it is: the bytes of the log need not even be in the file. -/
theorem C70_violated_log : ∃ file : List Byte, Spec.bytesAt file (current file + 48) 16 ≠ List.replicate 16 0#8 ∧ ∃ v, Vhdx.openFile file = .ok v := by
  have hs := small70 1#8 2#8 5#8 26
  refine ⟨file70 (header70 1#8 5#8) (header70 2#8 5#8) regions70 items70 (values70 26), ?_,
    opened70 (by rw [file70_length hs]; omega) (by rw [count70 hs]; omega) (texts70 hs) ⟨contents70 hs, header1_70 hs rfl _, header2_70 hs rfl _, regions1_70 hs _, regions2_70 hs _⟩⟩
  have h (n : Byte) : Spec.bytesAt (header70 n 5#8) 48 16 = List.replicate 16 5#8 := by
    unfold header70
    rw [at_sealed (o := 40) (by rfl), at_full (by simp [guidBytes])]
    rfl
  unfold current
  split
  · rw [at70 hs 1 (o := 48) rfl (by rfl) (by rw [header70_length]; omega), h]; decide
  · rw [at70 hs 2 (o := 48) rfl (by rfl) (by rw [header70_length]; omega), h]; decide

/-- A header without its checksum. -/
private def unsealed70 (b : Byte) : List Byte := ascii "head" ++ List.replicate 4 0#8 ++ (2#8 :: List.replicate 4086 0#8 ++ [b])

private theorem last_byte (P s : BitVec 32) (hP : Crc32.z P (Crc32.z P (Crc32.z P (Crc32.z P (Crc32.z P (Crc32.z P (Crc32.z P (Crc32.z P (Crc32.top true)))))))) ≠ 0#32) :
    crcBits P s (bitsLsbFirst 0#8) ≠ crcBits P s (bitsLsbFirst 1#8) := by
  have hf (r : BitVec 32) : crcBit P r false = Crc32.z P r := by rw [Crc32.crcBit_eq]; simp [Crc32.top]
  have h0 : bitsLsbFirst 0#8 = [false, false, false, false, false, false, false, false] := by decide
  have h1 : bitsLsbFirst 1#8 = [true, false, false, false, false, false, false, false] := by decide
  rw [h0, h1]
  unfold crcBits
  simp only [List.foldl_cons, List.foldl_nil, hf, Crc32.crcBit_eq, Crc32.z_xor]
  intro h
  apply hP
  have := congrArg (fun x => Crc32.z P (Crc32.z P (Crc32.z P (Crc32.z P (Crc32.z P (Crc32.z P (Crc32.z P (Crc32.z P s))))))) ^^^ x) h
  simp only [BitVec.xor_self, ← BitVec.xor_assoc, BitVec.zero_xor] at this
  simpa using this.symm

private theorem unsealed_crc : ∃ b, (crc32Reflected 0x82f63b78#32 0#32 (Spec.bytesAt (unsealed70 b) 0 4 ++ List.replicate 4 0#8 ++ (unsealed70 b).drop 8)).toNat ≠ 0 := by
  have hd (b : Byte) : Spec.bytesAt (unsealed70 b) 0 4 ++ List.replicate 4 0#8 ++ (unsealed70 b).drop 8 =
      (ascii "head" ++ List.replicate 4 0#8 ++ (2#8 :: List.replicate 4086 0#8)) ++ [b] := by
    have h1 : Spec.bytesAt (unsealed70 b) 0 4 = ascii "head" := by
      unfold unsealed70; rw [List.append_assoc, at_left (by decide +kernel), whole70 (by rfl)]
    have h2 : (unsealed70 b).drop 8 = 2#8 :: List.replicate 4086 0#8 ++ [b] := by
      unfold unsealed70
      rw [List.drop_append, List.drop_of_length_le (by decide +kernel)]
      rfl
    rw [h1, h2]
    simp only [List.append_assoc, List.cons_append]
  have hc (b : Byte) : crc32Reflected 0x82f63b78#32 0#32 (Spec.bytesAt (unsealed70 b) 0 4 ++ List.replicate 4 0#8 ++ (unsealed70 b).drop 8) =
      ~~~ (crcBits (BitVec.reverse 0x82f63b78#32) (crcBits (BitVec.reverse 0x82f63b78#32) (~~~ 0#32 : BitVec 32).reverse
        ((ascii "head" ++ List.replicate 4 0#8 ++ (2#8 :: List.replicate 4086 0#8)).flatMap bitsLsbFirst)) (bitsLsbFirst b)).reverse := by
    rw [hd]
    unfold crc32Reflected crcBits
    rw [List.flatMap_append, List.foldl_append]
    rfl
  by_cases h0 : (crc32Reflected 0x82f63b78#32 0#32 (Spec.bytesAt (unsealed70 0#8) 0 4 ++ List.replicate 4 0#8 ++ (unsealed70 0#8).drop 8)).toNat = 0
  · refine ⟨1#8, fun h1 => ?_⟩
    have h := BitVec.eq_of_toNat_eq (h0.trans h1.symm)
    rw [hc, hc] at h
    have h := congrArg (fun x => (~~~ x).reverse) h
    simp only [BitVec.not_not, Crc32.rev_rev] at h
    exact last_byte _ _ (by decide +kernel) h
  · exact ⟨0#8, h0⟩

/-- A header whose checksum is wrong is taken for good if the stored checksum is 0. -/
theorem C70_violated_checksum : ∃ file : List Byte, ¬ HeaderOk file false (current file) ∧ ∃ v, Vhdx.openFile file = .ok v := by
  obtain ⟨b, hb⟩ := unsealed_crc
  have hul : (unsealed70 b).length = 4096 := by
    unfold unsealed70
    simp only [List.length_append, List.length_cons, List.length_replicate, List.length_nil, show (ascii "head").length = 4 from rfl]
  have hs : Small (header70 1#8 0#8) (unsealed70 b) regions70 items70 (values70 26) :=
    ⟨by rw [header70_length]; omega, by rw [hul]; omega, by rw [regions70_length], by rw [items70_length]; omega, by rw [values70_length]; omega⟩
  have he : Spec.bytesAt (file70 (header70 1#8 0#8) (unsealed70 b) regions70 items70 (values70 26)) header2 4096 = unsealed70 b := by
    rw [at70 hs 2 (o := 0) rfl (by rfl) (by omega), whole70 hul]
  have hz : Spec.field (unsealed70 b) 4 4 = 0 := by
    unfold Spec.field unsealed70
    rw [at_left (by decide +kernel)]; decide +kernel
  have hc : current (file70 (header70 1#8 0#8) (unsealed70 b) regions70 items70 (values70 26)) = header2 := by
    unfold current
    rw [if_neg]
    rw [field70 hs 2 (o := 8) rfl (by rfl) (by omega), field70 hs 1 (o := 8) rfl (by rfl) (by rw [header70_length]; omega)]
    have h1 : Spec.field (header70 1#8 0#8) 8 8 = 1 := by
      unfold Spec.field header70
      rw [at_sealed (o := 0) (by rfl), at_full (by simp [guidBytes])]
      rfl
    have h2 : Spec.field (unsealed70 b) 8 8 = 2 := by
      unfold Spec.field unsealed70
      rw [at_right (k := 8) (o := 0) (by rfl)]
      rfl
    rw [h1, h2]
    omega
  refine ⟨file70 (header70 1#8 0#8) (unsealed70 b) regions70 items70 (values70 26), fun h => ?_,
    opened70 (by rw [file70_length hs]; omega) (by rw [count70 hs]; omega) (texts70 hs) ⟨contents70 hs, header1_70 hs rfl _, ?_, regions1_70 hs _, regions2_70 hs _⟩⟩
  · rw [hc] at h
    have := h.checksum
    rw [he] at this
    rcases this with h | h
    · rw [hz] at h
      exact hb h.symm
    · exact absurd h.1 (by simp)
  · refine ⟨by rw [file70_length hs, header2]; omega, ?_, ?_⟩
    · rw [at70 hs 2 (o := 0) rfl (by rfl) (by omega)]
      unfold unsealed70
      rw [List.append_assoc, at_left (by decide +kernel)]; decide +kernel
    · rw [he]; exact Or.inr ⟨rfl, hz⟩

/-- The kinds are the wrong way round: if the flag is set that all blocks stay allocated, the disk is said to be dynamic, and if not, fixed. -/
theorem C70_violated_kind (file : List Byte) (hU : file.length < 2 ^ 63) (hn : items file ≤ 2047) (ht : Texts file) (v) (h : Vhdx.openFile file = .ok v) :
    (flags file % 4 = 1 → v.image.diskType = .dynamic) ∧ (flags file % 4 = 0 → v.image.diskType = .fixed) := by
  have := ((C70_open_partial file hU hn ht).2.2 v h).kind
  constructor <;> intro h <;> rw [this, h] <;> rfl

/-- Reading entries past the end of the table panics. -/
private theorem entries_panic (d : List Byte) (n off : Nat) (acc : List Vhdx.Place) (hd : d.length < off + 32 * n)
    (h : ∀ i, off + 32 * (i + 1) ≤ d.length → 65536 ≤ Spec.field (Spec.bytesAt d (off + 32 * i) 32) 16 4) : Vhdx.entriesLoop Vhdx.itemEntry d n off acc = .panic ∨ d.length < off := by
  induction n generalizing off acc with
  | zero => right; omega
  | succ n ih =>
    left
    unfold Vhdx.entriesLoop
    by_cases hin : off + 32 ≤ d.length
    · rw [slice_bytesAt hin, R.ok_bind]
      obtain ⟨p, e, -⟩ := (Vhdx.itemEntry_good (Spec.bytesAt d off 32) (bytesAt_length hin)).exists_ok (h 0 (by omega))
      rw [e, R.ok_bind]
      rcases ih (off + 32) (p :: acc) (by omega) (fun i hi => by
        have := h (i + 1) (by omega)
        rwa [show off + 32 * (i + 1) = off + 32 + 32 * i by omega] at this) with k | k
      · exact k
      · omega
    · rw [show R.slice d off (off + 32) = .panic by unfold R.slice; rw [if_neg (by omega)]]
      rfl

/-- A metadata table that tells of more items than fit in it makes opening panic, if the entries that do fit are right. -/
theorem C70_violated_items : (∀ file : List Byte, Spec.bytesAt file 0 8 = ascii "vhdxfile" → HeaderOk file true header1 → HeaderOk file true header2 →
      RegionsOk file true regions1 → RegionsOk file true regions2 →
      (∃ o n, region file metadataRegion = some (o, n) ∧ 65536 ≤ n ∧ o + 65536 ≤ file.length ∧ Spec.bytesAt file o 8 = ascii "metadata") →
      2047 < items file → (∀ i, i < 2047 → 65536 ≤ Spec.field file (base file + 32 + 32 * i + 16) 4) → Vhdx.openFile file = .panic) ∧
    ∃ file : List Byte, Spec.bytesAt file 0 8 = ascii "vhdxfile" ∧ HeaderOk file true header1 ∧ HeaderOk file true header2 ∧
      RegionsOk file true regions1 ∧ RegionsOk file true regions2 ∧
      (∃ o n, region file metadataRegion = some (o, n) ∧ 65536 ≤ n ∧ o + 65536 ≤ file.length ∧ Spec.bytesAt file o 8 = ascii "metadata") ∧
      2047 < items file ∧ (∀ i, i < 2047 → 65536 ≤ Spec.field file (base file + 32 + 32 * i + 16) 4) := by
  constructor
  · intro file k0 k1 k2 k3 k4 ⟨o, n, km, hn, hin, hsig⟩ hi hof
    have hbase : base file = o := by unfold base; rw [km]; rfl
    unfold Vhdx.openFile
    obtain ⟨_, e, -⟩ := (Vhdx.readFileHeader_good file).exists_ok ⟨by have := k1.inside; unfold header1 at this; omega, k0⟩
    rw [e, R.ok_bind]
    obtain ⟨_, e, -⟩ := (Vhdx.readImageHeader_good file 65536).exists_ok k1
    rw [e, R.ok_bind]
    obtain ⟨_, e, -⟩ := (Vhdx.readImageHeader_good file 131072).exists_ok k2
    rw [e, R.ok_bind]
    obtain ⟨_, e, -, rfl⟩ := (Vhdx.readRegions_good file 196608).exists_ok k3
    rw [e, R.ok_bind]
    obtain ⟨_, e, -⟩ := (Vhdx.readRegions_good file 262144).exists_ok k4
    rw [e, R.ok_bind, show Vhdx.metadataId = Vhdx.uuidOf metadataRegion from by decide +kernel]
    rcases Vhdx.find_region k3 (id := metadataRegion) (by decide +kernel) with ⟨p, h1, h2, -⟩ | ⟨h1, h2⟩
    swap
    · rw [km] at h2; exact absurd h2 (by simp)
    rw [km, Option.some.injEq, Prod.mk.injEq] at h2
    unfold Vhdx.required
    rw [h1]
    simp only
    rw [R.ok_bind, R.require_true (by omega), R.ok_bind]
    have hr : Vhdx.readItems file p.offset = .panic := by
      unfold Vhdx.readItems
      obtain ⟨d, e, hd, h3, h4⟩ := (readExactAt_good (U := file) (pos := p.offset) (n := 65536)).exists_ok (by omega)
      rw [e, R.ok_bind, slice_bytesAt' (n := 8) rfl (by omega), R.ok_bind]
      subst hd
      rw [bytesAt_bytesAt (by omega), Nat.add_zero, ← h2.1, hsig, R.require_true (by decide +kernel), R.ok_bind, Vhdx.u16le_field (by rw [h2.1]; omega), R.ok_bind,
        Vhdx.field_at (by omega)]
      have hi : 2047 < Spec.field file (o + 10) 2 := by rw [← hbase]; exact hi
      rcases entries_panic (Spec.bytesAt file o 65536) (Spec.field file (o + 10) 2) 32 [] (by rw [bytesAt_length (by omega)]; omega) (fun i hi => by
        rw [h2.1, h3] at hi
        rw [bytesAt_bytesAt (by omega), Vhdx.field_at (by omega)]
        have := hof i (by omega)
        rw [hbase] at this
        rwa [show o + (32 + 32 * i) + 16 = o + 32 + 32 * i + 16 by omega]) with k | k
      · exact k
      · rw [h2.1, h3] at k; omega
    rw [hr]
    rfl
  · have hml : (ascii "metadata" ++ List.replicate 65528 0xff#8).length = 65536 := by rw [List.length_append, List.length_replicate]; rfl
    have hs : Small (header70 1#8 0#8) (header70 2#8 0#8) regions70 (ascii "metadata" ++ List.replicate 65528 0xff#8) (values70 26) :=
      { small70 1#8 2#8 0#8 26 with m := by omega }
    have hb := base70 hs
    have hf (o n : Nat) (h8 : 8 ≤ o) (ho : o + n ≤ 65536) : Spec.field (file70 (header70 1#8 0#8) (header70 2#8 0#8) regions70 (ascii "metadata" ++ List.replicate 65528 0xff#8) (values70 26))
        (327680 + o) n = leNat (List.replicate n 0xff#8) := by
      rw [field70 hs 5 (o := o) rfl (by omega) (by omega)]
      unfold Spec.field
      rw [show o = 8 + (o - 8) by omega, at_right (by rfl)]
      unfold Spec.bytesAt
      rw [List.drop_replicate, List.take_replicate, Nat.min_eq_left (by omega)]
    refine ⟨_, ?_, header1_70 hs rfl _, header2_70 hs rfl _, regions1_70 hs _, regions2_70 hs _, ⟨_, _, metadata70 hs, by omega, by rw [file70_length hs]; omega, ?_⟩, ?_, ?_⟩
    · rw [at70 hs 0 (o := 0) rfl (by rfl) (by decide +kernel)]; decide +kernel
    · rw [at70 hs 5 (o := 0) rfl (by rfl) (by omega), at_left (by decide +kernel)]; decide +kernel
    · unfold items
      rw [hb, hf 10 2 (by omega) (by omega)]; decide
    · intro i hi
      rw [hb, show 327680 + 32 + 32 * i + 16 = 327680 + (48 + 32 * i) by omega, hf _ 4 (by omega) (by omega)]; decide

private theorem panic70 (file : List Byte) (hl : file.length = 524288) (hv : Valid file true) (hb : Vhdx.Based file)
    (hit : item file locatorItem = some (393256, 190)) (hlp : Spec.bytesAt file 393256 190 = locator70 27) : Vhdx.openFile file = .panic := by
  unfold Vhdx.openFile
  obtain ⟨_, e, -⟩ := (Vhdx.readFileHeader_good file).exists_ok ⟨by omega, hv.contents.signature⟩
  rw [e, R.ok_bind]
  obtain ⟨_, e, -⟩ := (Vhdx.readImageHeader_good file 65536).exists_ok hv.header1
  rw [e, R.ok_bind]
  obtain ⟨_, e, -⟩ := (Vhdx.readImageHeader_good file 131072).exists_ok hv.header2
  rw [e, R.ok_bind]
  obtain ⟨_, e, -, rfl⟩ := (Vhdx.readRegions_good file 196608).exists_ok hv.regions1
  rw [e, R.ok_bind]
  obtain ⟨_, e, -⟩ := (Vhdx.readRegions_good file 262144).exists_ok hv.regions2
  rw [e, R.ok_bind, show Vhdx.metadataId = Vhdx.uuidOf metadataRegion from by decide +kernel]
  obtain ⟨o, n, km, hn, hin, hsig⟩ := hv.contents.metadata
  have hbase : base file = o := by unfold base; rw [km]; rfl
  rcases Vhdx.find_region hv.regions1 (id := metadataRegion) (by decide +kernel) with ⟨p, h1, h2, -⟩ | ⟨h1, h2⟩
  swap
  · rw [km] at h2; exact absurd h2 (by simp)
  rw [km, Option.some.injEq, Prod.mk.injEq] at h2
  unfold Vhdx.required
  rw [h1]
  simp only
  rw [R.ok_bind, R.require_true (by omega), R.ok_bind, ← h2.1, ← hbase]
  obtain ⟨_, e, -, rfl⟩ := (Vhdx.readItems_good file (base file) hb.number).exists_ok ⟨by omega, by rw [hbase]; exact hsig, hv.contents.offsets⟩
  rw [e, R.ok_bind]
  change (Vhdx.parameters file (base file) (Vhdx.itemsOf file) >>= _) = _
  obtain ⟨r, e, -⟩ := (Vhdx.parameters_good hb).exists_ok ⟨hv.contents.parameters, hv.contents.blockSize⟩
  rw [e, R.ok_bind]
  obtain ⟨_, _⟩ := r
  simp only
  change (Vhdx.diskSize file (base file) (Vhdx.itemsOf file) >>= _) = _
  obtain ⟨r, e, -⟩ := (Vhdx.diskSize_good hb).exists_ok hv.contents.diskSize
  rw [e, R.ok_bind]
  change (Vhdx.logicalSector file (base file) (Vhdx.itemsOf file) >>= _) = _
  obtain ⟨r, e, -⟩ := (Vhdx.logicalSector_good hb).exists_ok ⟨hv.contents.logical, hv.contents.sectorSize⟩
  rw [e, R.ok_bind]
  change (Vhdx.physicalSector file (base file) (Vhdx.itemsOf file) >>= _) = _
  obtain ⟨r, e, -⟩ := (Vhdx.physicalSector_good hb).exists_ok hv.contents.physical
  rw [e, R.ok_bind]
  change (Vhdx.diskIdentifier file (base file) (Vhdx.itemsOf file) >>= _) = _
  obtain ⟨r, e, -⟩ := (Vhdx.diskIdentifier_good hb).exists_ok hv.contents.diskId
  rw [e, R.ok_bind]
  change (Vhdx.parent file (base file) (Vhdx.itemsOf file) >>= _) = _
  have hp : Vhdx.parent file (base file) (Vhdx.itemsOf file) = .panic := by
    unfold Vhdx.parent
    rw [show Vhdx.locatorId = Vhdx.uuidOf locatorItem from by decide +kernel]
    rcases Vhdx.find_items hb (id := locatorItem) (by decide +kernel) with ⟨p, h1, h2, h3⟩ | ⟨h1, h2⟩
    swap
    · rw [hit] at h2; exact absurd h2 (by simp)
    rw [h1]
    simp only
    rw [hit, Option.some.injEq, Prod.mk.injEq] at h2
    rw [R.addU_ok h3, R.ok_bind, ← h2.1, ← h2.2]
    have : Vhdx.readLocator file 190 393256 = .panic := by
      unfold Vhdx.readLocator
      rw [R.require_true (by omega), R.ok_bind]
      obtain ⟨d, e, hd, h3, h4⟩ := (readExactAt_good (U := file) (pos := 393256) (n := 190)).exists_ok (by omega)
      rw [e, R.ok_bind, hd, hlp]
      decide +kernel
    rw [this]
    rfl
  rw [hp]
  rfl

/-- A text of an odd number of bytes in the parent locator makes opening panic. -/
theorem C70_violated_text : ∃ file d : List Byte, Valid file false ∧ items file ≤ 2047 ∧ VhdxFile.locator file = some d ∧ (keyPlace d 1).2 = 27 ∧
    Vhdx.openFile file = .panic := by
  have hs := small70 1#8 2#8 0#8 27
  have hlo : LocatorOk (locator70 27) := by
    refine ⟨by decide +kernel, by decide +kernel, fun i hi => ?_⟩
    have h : Spec.field (locator70 27) 18 2 = 2 := by decide +kernel
    rw [h] at hi
    exact (by decide +kernel : ∀ i, i < 2 → 20 + 12 * (i + 1) ≤ (locator70 27).length ∧ PlaceOk (locator70 27) (keyPlace (locator70 27) i) ∧
      PlaceOk (locator70 27) (valuePlace (locator70 27) i)) i hi
  have hv : ∀ lax, Valid (file70 (header70 1#8 0#8) (header70 2#8 0#8) regions70 items70 (values70 27)) lax := fun lax =>
    ⟨contents70 hs hlo, header1_70 hs rfl _, header2_70 hs rfl _, regions1_70 hs _, regions2_70 hs _⟩
  refine ⟨_, _, hv false, by rw [count70 hs]; omega, locator70_eq hs, by decide +kernel, ?_⟩
  have hlp := locatorAt70 hs
  have hit := item70 hs locatorItem
  have hb : Vhdx.Based (file70 (header70 1#8 0#8) (header70 2#8 0#8) regions70 items70 (values70 27)) :=
    ⟨by rw [base70 hs, file70_length hs]; omega, by rw [count70 hs]; omega, by rw [file70_length hs]; omega⟩
  have hl := file70_length hs
  exact panic70 _ hl (hv true) hb (hit.trans (by decide +kernel)) hlp

end Keramics.Props
