import Verif.Props.Ewf
import Verif.Props.Zlib
import Verif.Lemmas.EwfSections

/-!
# C75: what EWF images say about the acquisition

`EwfInfo.openImage` reads all sections of an image. It leaves the chunks to `EwfImage.openImage` of C42, and the chunks and headers are
decompressed by the zlib decompressor of C28.
-/

namespace Keramics.Props
open Keramics Keramics.Spec Keramics.Spec.Ewf Keramics.EwfInfo

/-- The bytes are a zlib stream of other bytes, with nothing behind it. -/
def ZlibOf (data plain : List Byte) : Prop :=
  ∃ blocks sum, Spec.Zlib.Stream data blocks sum [] ∧ blocks ≠ [] ∧ Spec.Deflate.Wf 0 blocks ∧ Spec.Deflate.Ok blocks ∧
    (∀ b ∈ blocks, Deflate.HasDist b) ∧ Spec.Deflate.denote blocks = plain

theorem ZlibOf.decompress {data plain : List Byte} (h : ZlibOf data plain) {n : Nat} (hn : plain.length ≤ n) :
    Zlib.decompress data (List.replicate n 0#8) = .ok (plain ++ List.replicate (n - plain.length) 0#8, plain.length) := by
  obtain ⟨blocks, sum, h1, h2, h3, h4, h5, rfl⟩ := h
  rw [Zlib.decompress_stream h1 h2 h3 h4 h5 _ (by rw [List.length_replicate]; exact hn), if_pos (Or.inl rfl), List.drop_replicate]

/-- A section has a header: it is of the kind that the coding asks for, and its data is a zlib stream of the text. The text is at most
four times as long as its compressed data, and the dates of a "header2" are not empty. -/
structure Stores (p : Placed) (h : Header) : Prop where
  kind : p.sec.kind = if h.coding = .bytes then headerKind else header2Kind
  wf : h.Wf
  data : ZlibOf p.data h.data
  small : h.data.length ≤ 4 * p.data.length
  dates : h.coding ≠ .bytes → ∀ c ∈ h.sheet.columns, c.1 = tag .acquisitionDate ∨ c.1 = tag .systemDate → c.2 ≠ []

theorem Stores.holds {p : Placed} {h : Header} (hp : Stores p h) : Holds p h :=
  ⟨hp.kind, hp.wf, hp.data.decompress (by have := hp.small; omega), hp.dates⟩

/-- C75, in part: in every accepted image the value of a type is that of the first column with its tag, in the first header that has
one, text as it is stored and dates of a "header2" as timestamps; types without one have no value. Missing: notes of a "header2"
(`C75_violated_notes`), empty dates (`C75_violated_date`), and text that was compressed well (`C75_violated_ratio`). -/
theorem C75_values_partial (files : Nat → Option (List Byte)) (segments : List (List Byte)) (hne : segments ≠ [])
    (hfiles : ∀ i, i < segments.length → files (i + 1) = segments[i]?)
    (hlast : ∀ i, (h : i < segments.length) → (IsLast segments[i] ↔ i + 1 = segments.length))
    (image : EwfImage.State) (info : Info) (cache : EwfImage.Files) (hopen : EwfInfo.openImage files = .ok (image, info, cache))
    (headers : List Header) (hh : List.Forall₂ Stores ((placed segments).filter Placed.isHeader) headers) (k : ValueType)
    (hn : k = .notes → ∀ h ∈ headers, h.coding ≠ .bytes → ∀ c ∈ h.sheet.columns, c.1 ≠ [0x74] ∧ c.1 ≠ [0x77]) :
    info.values.get k = valueOf headers k := by
  have hc := openImage_chain hne hfiles hlast hopen
  have := chain_values hc (headers := headers) (by rw [placedFrom_snd]; exact forall2_imp (fun _ _ h => h.holds) hh) hn
  rw [this]
  rfl

/-- C75: in every accepted image the MD5 is that of the last section "hash" or "digest", the SHA1 that of the last section "digest";
zeros if there is none. All of these sections have the right Adler-32. -/
theorem C75_hashes (files : Nat → Option (List Byte)) (segments : List (List Byte)) (hne : segments ≠ [])
    (hfiles : ∀ i, i < segments.length → files (i + 1) = segments[i]?)
    (hlast : ∀ i, (h : i < segments.length) → (IsLast segments[i] ↔ i + 1 = segments.length))
    (image : EwfImage.State) (info : Info) (cache : EwfImage.Files) (hopen : EwfInfo.openImage files = .ok (image, info, cache)) :
    info.md5 = md5 (placed segments) ∧ info.sha1 = sha1 (placed segments) ∧
      ∀ p ∈ placed segments, (p.sec.kind = hashKind → p.Sound 32) ∧ (p.sec.kind = digestKind → p.Sound 76) := by
  have hc := openImage_chain hne hfiles hlast hopen
  have h1 := chain_last Info.md5 _ _ effect_md5 hc
  have h2 := chain_last Info.sha1 _ _ effect_sha1 hc
  rw [placedFrom_snd] at h1 h2
  refine ⟨h1, h2, fun p hp => ?_⟩
  rw [← placedFrom_snd (k := 1), List.mem_map] at hp
  obtain ⟨⟨k, q⟩, hq, rfl⟩ := hp
  have := chain_sound hc _ hq
  exact ⟨this.1, this.2.1⟩

/-- C75: in every accepted image the media type, the error granularity and the set identifier are those of the last volume section that
has them; every section "data" has the set identifier of the volume sections before it. All of these sections and the sections "table2"
have the right Adler-32, and headers are only in the first segment. -/
theorem C75_volume (files : Nat → Option (List Byte)) (segments : List (List Byte)) (hne : segments ≠ [])
    (hfiles : ∀ i, i < segments.length → files (i + 1) = segments[i]?)
    (hlast : ∀ i, (h : i < segments.length) → (IsLast segments[i] ↔ i + 1 = segments.length))
    (image : EwfImage.State) (info : Info) (cache : EwfImage.Files) (hopen : EwfInfo.openImage files = .ok (image, info, cache)) :
    info.mediaType = Spec.Ewf.mediaType (placed segments) ∧ info.errorGranularity = errorGranularity (placed segments) ∧
      info.setIdentifier = setIdentifier (placed segments) ∧
      (∀ i p, (placed segments)[i]? = some p → p.sec.kind = dataKind → p.bytes 64 16 = setIdentifier ((placed segments).take i)) ∧
      (∀ p ∈ placed segments, (p.sec.kind = dataKind ∨ p.isVolume = true → p.Sound 1048) ∧
        (p.sec.kind = table2Kind → p.Sound 20 ∧ Checked p.file (p.sec.start + 100) (4 * leNat (p.bytes 0 4)))) ∧
      ∀ i, (h : i < segments.length) → ∀ s ∈ sections segments[i], s.kind = headerKind ∨ s.kind = header2Kind → i = 0 := by
  have hc := openImage_chain hne hfiles hlast hopen
  have hv := chain_volume hc
  rw [placedFrom_snd] at hv
  refine ⟨hv.1, hv.2.1, hv.2.2, fun i p hi hk => ?_, fun p hp => ?_, fun i h s hs hk => ?_⟩
  · have := chain_data hc i p (by rw [placedFrom_snd]; exact hi) hk
    rw [placedFrom_snd] at this
    exact this
  · rw [← placedFrom_snd (k := 1), List.mem_map] at hp
    obtain ⟨⟨k, q⟩, hq, rfl⟩ := hp
    have := chain_sound hc _ hq
    exact ⟨this.2.2.1, this.2.2.2.1⟩
  · have hm : (1 + i, (⟨segments[i], s⟩ : Placed)) ∈ placedFrom 1 segments := placedFrom_mem h hs
    have := (chain_sound hc _ hm).2.2.2.2 ((isHeader_eq _).2 hk)
    simp only at this
    omega

/-- C75: sections are accepted. Headers in the first segment, of 2 bytes to 16 MiB, are if their dates are below 2^31 seconds; sections
"hash", "digest" and volumes are if their Adler-32 is right, sections "data" if they also have the set identifier known so far, sections
"table2" if both Adler-32 are right. -/
theorem C75_accepted (p : Placed) (hs : p.sec.start + 76 ≤ p.sec.next) (hf : p.sec.next ≤ p.file.length) (hlen : p.file.length < 2 ^ 63) (info : Info)
    (segment : Nat) :
    let accepted := ∃ info', infoStep segment p.file p.sec.start ⟨p.sec.kind, p.sec.next, p.sec.next - p.sec.start⟩ info = .ok info'
    (∀ h, Stores p h → 2 ≤ p.data.length → p.data.length ≤ 16777216 → segment = 1 →
      (h.coding ≠ .bytes → ∀ c ∈ h.sheet.columns, c.1 = tag .acquisitionDate ∨ c.1 = tag .systemDate → ∃ n, decimal c.2 = some n ∧ n < 2 ^ 31) →
      accepted) ∧
    (p.sec.kind = hashKind → p.sec.start + 112 ≤ p.file.length → p.Sound 32 → accepted) ∧
    (p.sec.kind = digestKind → p.sec.start + 156 ≤ p.file.length → p.Sound 76 → accepted) ∧
    (p.isVolume = true → p.Sound 1048 → accepted) ∧
    (p.sec.kind = dataKind → p.sec.start + 1128 ≤ p.file.length → p.Sound 1048 → p.bytes 64 16 = info.setIdentifier → accepted) ∧
    (p.sec.kind = table2Kind → p.data.length ≤ 16777216 → 28 + 4 * leNat (p.bytes 0 4) ≤ p.data.length → p.Sound 20 →
      Checked p.file (p.sec.start + 100) (4 * leNat (p.bytes 0 4)) → accepted) :=
  ⟨fun _ hp h1 h2 h3 h4 => accepts_header hs hf hlen hp.holds h1 h2 h3 h4, accepts_hash hlen, accepts_digest hlen, accepts_volume hf hlen,
    accepts_data hlen, accepts_table2 hs hf hlen⟩

/-- `ZlibContext::decompress` of a chunk, ewf/image.rs:286-301. -/
def unzip (data : List Byte) (n : Nat) : R (List Byte) := do
  let (out, _) ← Zlib.decompress data (List.replicate n 0#8)
  return out

/-- C75, in part: every accepted image, with all its sections, is read as the media: the bytes of the chunks that are not compressed, and
what the zlib streams of the other chunks are compressed from. The conditions are those of `C42_contents_partial`. -/
theorem C75_contents_partial (files : Nat → Option (List Byte)) (segments : List (List Byte)) (hne : segments ≠ [])
    (hfiles : ∀ i, i < segments.length → files (i + 1) = segments[i]?)
    (hlast : ∀ i, (h : i < segments.length) → (IsLast segments[i] ↔ i + 1 = segments.length))
    (hlen : ∀ file ∈ segments, file.length < 2 ^ 63)
    (image : EwfImage.State) (info : Info) (cache : EwfImage.Files) (hopen : EwfInfo.openImage files = .ok (image, info, cache))
    (hn : segments.length ≤ 16) (hapart : Apart segments) (plain : Chunk → List Byte)
    (hr : ∀ x, x < (volume segments).mediaSize → ∃ c, (chunks segments)[x / (volume segments).chunkSize]? = some c ∧
      (c.compressed = false → c.offset + x % (volume segments).chunkSize < (segmentFile segments c.segment).length) ∧
      (c.compressed = true → c.size < 2 ^ 32 ∧ c.offset + c.size ≤ (segmentFile segments c.segment).length ∧
        ZlibOf (Spec.bytesAt (segmentFile segments c.segment) c.offset c.size) (plain c) ∧ (plain c).length ≤ (volume segments).chunkSize))
    (ops : List StreamOp) (hf : (volume segments).mediaSize + seekBudget ops < 2 ^ 63) :
    ∃ tr, Stream.run (EwfImage.stream unzip image) ⟨EwfImage.caches cache, 0⟩ ops = .ok tr ∧ tr.map Prod.fst = ops ∧
      Trace true ((List.range (volume segments).mediaSize).map fun x =>
        match (chunks segments)[x / (volume segments).chunkSize]? with
        | none => 0#8
        | some c =>
          if c.compressed then (plain c).getD (x % (volume segments).chunkSize) 0#8
          else (segmentFile segments c.segment).getD (c.offset + x % (volume segments).chunkSize) 0#8) (volume segments).mediaSize 0 tr := by
  have hunzip : ∀ {data p : List Byte} {n : Nat}, ZlibOf data p → p.length ≤ n → unzip data n = .ok (p ++ List.replicate (n - p.length) 0#8) := by
    intro data p n h hn
    unfold unzip
    rw [h.decompress hn]
    rfl
  have hread : Readable unzip segments := by
    intro x hx
    obtain ⟨c, h1, h2, h3⟩ := hr x hx
    refine ⟨c, h1, h2, fun hc => ?_⟩
    obtain ⟨h4, h5, h6, h7⟩ := h3 hc
    exact ⟨h4, h5, _, hunzip h6 h7, by rw [List.length_append, List.length_replicate]; omega⟩
  obtain ⟨tr, h1, h2, h3⟩ := C42_contents_partial nothing unzip files segments hne hfiles hlast hlen image cache (openImage_state hopen) hn hread hapart ops hf
  refine ⟨tr, h1, h2, ?_⟩
  have e : contents unzip segments = (List.range (volume segments).mediaSize).map fun x =>
      match (chunks segments)[x / (volume segments).chunkSize]? with
      | none => 0#8
      | some c =>
        if c.compressed then (plain c).getD (x % (volume segments).chunkSize) 0#8
        else (segmentFile segments c.segment).getD (c.offset + x % (volume segments).chunkSize) 0#8 := by
    unfold contents
    refine List.map_congr_left fun x hx => ?_
    obtain ⟨c, h1, -, h3⟩ := hr x (List.mem_range.1 hx)
    unfold byteAt
    rw [h1]
    simp only
    by_cases hc : c.compressed = true
    · obtain ⟨-, -, h6, h7⟩ := h3 hc
      rw [if_pos hc, if_pos hc]
      unfold decompressed
      rw [hunzip h6 h7]
      simp only
      generalize x % (volume segments).chunkSize = i
      by_cases hi : i < (plain c).length
      · rw [List.getD_eq_getElem?_getD, List.getElem?_append_left hi, List.getD_eq_getElem?_getD]
      · rw [List.getD_eq_getElem?_getD, List.getElem?_append_right (by omega), List.getElem?_replicate, List.getD_eq_getElem?_getD,
          List.getElem?_eq_none (by omega)]
        split <;> rfl
    · rw [if_neg hc, if_neg hc]
  rw [e] at h3
  exact h3

/-! ## A case that meets the hypotheses -/

/-- A number of `n` bytes, little-endian. -/
private def le (n x : Nat) : List Byte := (List.range n).map fun i => BitVec.ofNat 8 (x / 256 ^ i)

/-- Bytes with their checksum. -/
private def checked (data : List Byte) : List Byte := data ++ le 4 (adler32 1 (data.map BitVec.toNat))

/-- The sections from an offset on, with a section "done" at the end. -/
private def build : Nat → List (List Byte × List Byte) → List Byte
  | o, [] => checked (done ++ le 8 o ++ List.replicate 48 0#8)
  | o, (k, data) :: rest =>
    checked (k ++ le 8 (o + 76 + data.length) ++ List.replicate 48 0#8) ++ data ++ build (o + 76 + data.length) rest

/-- A segment file with the number 1. -/
private def fileOf (secs : List (List Byte × List Byte)) : List Byte :=
  [0x45#8, 0x56#8, 0x46#8, 0x09#8, 0x0d#8, 0x0a#8, 0xff#8, 0x00#8, 1#8, 1#8, 0#8, 0#8, 0#8] ++ build 13 secs

def filesOf (file : List Byte) (k : Nat) : Option (List Byte) := if k = 1 then some file else none

/-- A zlib stream with a stored block. -/
private def zlib (text : List Byte) : List Byte :=
  [0x78#8, 0x9c#8, 1#8] ++ le 2 text.length ++ le 2 (65535 - text.length) ++ text ++ (le 4 (adler32 1 (text.map BitVec.toNat))).reverse

/-- A volume of one chunk of two sectors of two bytes, on an optical disk. -/
private def volumeData : List Byte :=
  checked (le 4 3 ++ le 4 1 ++ le 4 2 ++ le 4 2 ++ le 4 2 ++ List.replicate 36 0#8 ++ le 4 64 ++ le 4 0 ++
    [1#8, 2#8, 3#8, 4#8, 5#8, 6#8, 7#8, 8#8, 9#8, 10#8, 11#8, 12#8, 13#8, 14#8, 15#8, 16#8] ++ List.replicate 968 0#8)

private def tableData (e : Nat) : List Byte := checked (le 4 1 ++ List.replicate 16 0#8) ++ checked (le 4 e)

/-- Case number "7" and acquisition date 1700000000, as UTF-16. -/
private def wide : Header :=
  ⟨.littleEndian true, ⟨[0x31], [0x0a], [([0x63], [0x37]), ([0x6d], [0x31, 0x37, 0x30, 0x30, 0x30, 0x30, 0x30, 0x30, 0x30, 0x30])], [0x0a]⟩⟩

/-- Case number "8", notes "x" and a column with an unknown tag, as bytes. -/
private def narrow : Header := ⟨.bytes, ⟨[0x33], [0x0d, 0x0a], [([0x63], [0x38]), ([0x71], []), ([0x74], [0x78])], [0x0d, 0x0a]⟩⟩

/-- The data of the last section: the MD5 ends with 0x99. -/
private def hashData : List Byte := checked (List.replicate 15 0x11#8 ++ [0x99#8] ++ List.replicate 16 0#8)
private def digestData : List Byte := checked (List.replicate 16 0x22#8 ++ List.replicate 20 0x33#8 ++ List.replicate 40 0#8)

/-- The chunk is compressed. -/
def chunkData : List Byte := zlib [5#8, 6#8, 7#8, 8#8]

def secs75 : List (List Byte × List Byte) :=
  [(header2Kind, zlib wide.data), (headerKind, zlib narrow.data), (volumeKind, volumeData), (sectorsKind, chunkData),
    (tableKind, tableData (2 ^ 31 + 1467)), (table2Kind, tableData (2 ^ 31 + 1467)), (dataKind, volumeData), (digestKind, digestData),
    (hashKind, hashData)]

def file75 : List Byte := fileOf secs75

theorem last75 : ∀ i, (h : i < [file75].length) → (IsLast [file75][i] ↔ i + 1 = [file75].length) := by
  intro i h
  have hi : i = 0 := by simpa using h
  subst hi
  have : (sections file75).any (fun s => decide (s.kind = done)) = true := by decide +kernel
  obtain ⟨s, h1, h2⟩ := List.any_eq_true.1 this
  exact ⟨fun _ => rfl, fun _ => ⟨s, h1, by simpa using h2⟩⟩

theorem files_of (file : List Byte) : ∀ i, i < [file].length → filesOf file (i + 1) = [file][i]? := by
  intro i h
  have hi : i = 0 := by simpa using h
  subst hi
  rfl

theorem chunks75 : chunks [file75] = [⟨1, 1467, 15, true⟩] := by decide +kernel

theorem volume75 : volume [file75] = ⟨1, 2, 2, 2⟩ := by decide +kernel

theorem chunk75 : (Spec.bytesAt (segmentFile [file75] 1) 1467 15) = chunkData ∧ (segmentFile [file75] 1).length = 3170 := by decide +kernel

private theorem headers75 : (placed [file75]).filter Placed.isHeader = [⟨file75, ⟨13, header2Kind, 152⟩⟩, ⟨file75, ⟨152, headerKind, 263⟩⟩] := by decide +kernel

private theorem data75 : Placed.data ⟨file75, ⟨13, header2Kind, 152⟩⟩ = zlib wide.data ∧ Placed.data ⟨file75, ⟨152, headerKind, 263⟩⟩ = zlib narrow.data := by
  decide +kernel

/-- A stored block. -/
theorem zlibOf {text : List Byte} (h : text.length ≤ 65535)
    (hb : Deflate.byteBits ([1#8] ++ le 2 text.length ++ le 2 (65535 - text.length) ++ text) = Spec.Deflate.encode [.stored (List.replicate 5 false) text]) :
    ZlibOf (zlib text) text := by
  generalize hx : adler32 1 (text.map BitVec.toNat) = x
  refine ⟨[.stored (List.replicate 5 false) text], _, ⟨0x78#8, 0x9c#8, [], [1#8] ++ le 2 text.length ++ le 2 (65535 - text.length) ++ text,
    BitVec.ofNat 8 (x / 256 ^ 3), BitVec.ofNat 8 (x / 256 ^ 2), BitVec.ofNat 8 (x / 256 ^ 1), BitVec.ofNat 8 (x / 256 ^ 0), ?_, by decide, by decide, by decide, by decide,
    ⟨[], by decide, ?_⟩, rfl⟩, by simp, ?_, ?_, ?_, ?_⟩
  · unfold zlib
    rw [hx]
    have : (le 4 x).reverse = [BitVec.ofNat 8 (x / 256 ^ 3), BitVec.ofNat 8 (x / 256 ^ 2), BitVec.ofNat 8 (x / 256 ^ 1), BitVec.ofNat 8 (x / 256 ^ 0)] := rfl
    rw [this]
    simp
  · rw [List.append_nil]; exact hb
  · exact ⟨⟨by simp, h⟩, trivial⟩
  · simp [Spec.Deflate.Ok, Spec.Deflate.Block.ops, Spec.Lz.Ok, Spec.Lz.Op.ok]
  · intro b hb
    simp only [List.mem_cons, List.not_mem_nil, or_false] at hb
    subst hb
    trivial
  · simp [Spec.Deflate.denote, Spec.Deflate.Block.ops, Spec.Lz.run, Spec.Lz.Op.run]

private theorem run_ok {α : Type} {x : R α} {p : α → Bool} (h : (match x with | .ok a => p a | _ => false) = true) : ∃ a, x = .ok a ∧ p a = true := by
  cases x with
  | ok a => exact ⟨a, rfl, h⟩
  | err => cases h
  | panic => cases h

/-- What is known about the image. -/
theorem open75 : ∃ x, EwfInfo.openImage (filesOf file75) = .ok x ∧ x.2.1 = ⟨[(.caseNumber, .utf16 [0x37]), (.acquisitionDate, .posixTime 1700000000), (.notes, .byte [0x78#8])],
    List.replicate 15 0x11#8 ++ [0x99#8], List.replicate 20 0x33#8, [1#8, 2#8, 3#8, 4#8, 5#8, 6#8, 7#8, 8#8, 9#8, 10#8, 11#8, 12#8, 13#8, 14#8, 15#8, 16#8], .opticalDisk, 64⟩ := by
  obtain ⟨x, h1, h2⟩ := run_ok (x := EwfInfo.openImage (filesOf file75)) (p := fun x => decide (x.2.1 = ⟨[(.caseNumber, .utf16 [0x37]), (.acquisitionDate, .posixTime 1700000000), (.notes, .byte [0x78#8])],
    List.replicate 15 0x11#8 ++ [0x99#8], List.replicate 20 0x33#8, [1#8, 2#8, 3#8, 4#8, 5#8, 6#8, 7#8, 8#8, 9#8, 10#8, 11#8, 12#8, 13#8, 14#8, 15#8, 16#8], .opticalDisk, 64⟩)) (by decide +kernel)
  exact ⟨x, h1, by simpa using h2⟩

private theorem sheetWf {s : Sheet} (h : (decide (s.categories = [0x31] ∨ s.categories = [0x33]) && decide (s.eol = [0x0a] ∨ s.eol = [0x0d, 0x0a]) && decide (s.columns ≠ []) &&
    s.columns.all fun c => (c.1 ++ c.2).all fun x => decide (x ≠ 0 ∧ x ≠ 0x09 ∧ x ≠ 0x0a ∧ x ≠ 0x0d)) = true) : s.Wf := by
  simp only [Bool.and_eq_true, decide_eq_true_iff, List.all_eq_true] at h
  exact ⟨h.1.1.1, h.1.1.2, h.1.2, h.2⟩

/-- The hypotheses are met: the values of the first header, then those that only the second one has. -/
example : [file75] ≠ [] ∧ (∀ i, i < [file75].length → filesOf file75 (i + 1) = [file75][i]?) ∧
    (∀ i, (h : i < [file75].length) → (IsLast [file75][i] ↔ i + 1 = [file75].length)) ∧
    (∃ x, EwfInfo.openImage (filesOf file75) = .ok x ∧ x.2.1.values.get .caseNumber = some (.utf16 [0x37]) ∧
      x.2.1.values.get .notes = some (.byte [0x78#8])) ∧
    List.Forall₂ Stores ((placed [file75]).filter Placed.isHeader) [wide, narrow] ∧
    valueOf [wide, narrow] .caseNumber = some (.utf16 [0x37]) ∧ valueOf [wide, narrow] .acquisitionDate = some (.posixTime 1700000000) ∧
    valueOf [wide, narrow] .notes = some (.byte [0x78#8]) ∧ valueOf [wide, narrow] .platform = none := by
  refine ⟨by simp, files_of _, last75, ?_, ?_, by decide, by decide, by decide, by decide⟩
  · obtain ⟨x, h1, h2⟩ := open75
    exact ⟨x, h1, by rw [h2]; decide, by rw [h2]; decide⟩
  · rw [headers75]
    refine .cons ⟨rfl, ⟨sheetWf (by decide), by decide⟩, ?_, ?_, by decide⟩ (.cons ⟨rfl, ⟨sheetWf (by decide), by decide⟩, ?_, ?_, by decide⟩ .nil)
    · rw [data75.1]
      exact zlibOf (by decide) (by decide +kernel)
    · rw [data75.1]; decide
    · rw [data75.2]
      exact zlibOf (by decide) (by decide +kernel)
    · rw [data75.2]; decide

/-- The sections of the sample meet the conditions to be accepted. -/
example : ∀ p ∈ placed [file75], p.sec.kind = hashKind ∨ p.sec.kind = digestKind ∨ p.isVolume = true ∨ p.sec.kind = dataKind ∨ p.sec.kind = table2Kind →
    p.sec.start + 76 ≤ p.sec.next ∧ p.sec.next ≤ p.file.length ∧ (p.sec.kind = hashKind → p.Sound 32) ∧ (p.sec.kind = digestKind → p.Sound 76) ∧
      (p.isVolume = true → p.Sound 1048) ∧ (p.sec.kind = table2Kind → p.Sound 20) := by
  unfold Placed.Sound Spec.Ewf.Checked
  decide +kernel

/-- What the theorems on hashes, volumes and contents say about it. -/
theorem hashes75 : md5 (placed [file75]) = List.replicate 15 0x11#8 ++ [0x99#8] ∧ sha1 (placed [file75]) = List.replicate 20 0x33#8 ∧
    Spec.Ewf.mediaType (placed [file75]) = .opticalDisk ∧ errorGranularity (placed [file75]) = 64 ∧
    setIdentifier (placed [file75]) = [1#8, 2#8, 3#8, 4#8, 5#8, 6#8, 7#8, 8#8, 9#8, 10#8, 11#8, 12#8, 13#8, 14#8, 15#8, 16#8] := by
  decide +kernel

theorem example75 : Apart [file75] ∧ (∀ file ∈ [file75], file.length < 2 ^ 63) ∧ (volume [file75]).mediaSize = 4 ∧
    ∀ x, x < (volume [file75]).mediaSize → ∃ c, (chunks [file75])[x / (volume [file75]).chunkSize]? = some c ∧
      (c.compressed = false → c.offset + x % (volume [file75]).chunkSize < (segmentFile [file75] c.segment).length) ∧
      (c.compressed = true → c.size < 2 ^ 32 ∧ c.offset + c.size ≤ (segmentFile [file75] c.segment).length ∧
        ZlibOf (Spec.bytesAt (segmentFile [file75] c.segment) c.offset c.size) [5#8, 6#8, 7#8, 8#8] ∧
        [5#8, 6#8, 7#8, 8#8].length ≤ (volume [file75]).chunkSize) := by
  have hl : file75.length = 3170 := chunk75.2
  rw [volume75, chunks75]
  refine ⟨?_, ?_, by decide, fun x hx => ?_⟩
  · unfold Apart
    rw [chunks75]
    decide
  · intro file hf
    rw [List.mem_singleton.1 hf, hl]
    decide
  · have hx : x < 4 := hx
    have h4 : Volume.chunkSize ⟨1, 2, 2, 2⟩ = 4 := rfl
    rw [h4]
    refine ⟨⟨1, 1467, 15, true⟩, by rw [show x / 4 = 0 by omega]; rfl, (fun h => by cases h), fun _ => ⟨by decide, ?_, ?_, by decide⟩⟩
    · simp only
      rw [chunk75.2]
      decide
    · simp only
      rw [chunk75.1]
      exact zlibOf (by decide) (by decide +kernel)

/-! ## Where the property fails -/

/-- A section "header2" with a column. -/
private def wide1 (columns : List (List Nat × List Nat)) : Header := ⟨.littleEndian true, ⟨[0x31], [0x0a], columns, [0x0a]⟩⟩

/-- An image of headers only. -/
private def only (h : Header) : List Byte := fileOf [(header2Kind, zlib h.data)]

private def notesOnly : Header := wide1 [([0x74], [0x4e])]
private def notesTwo : Header := wide1 [([0x74], [0x4e]), ([0x77], [0x57])]

/-- The section of a header in the image. -/
private theorem stores1 {h : Header} {n : Nat} (hp : (placed [only h]).filter Placed.isHeader = [⟨only h, ⟨13, header2Kind, n⟩⟩])
    (hd : Placed.data ⟨only h, ⟨13, header2Kind, n⟩⟩ = zlib h.data) (hk : h.coding = .littleEndian true) (hw : h.Wf) (hl : h.data.length ≤ 65535)
    (hb : Deflate.byteBits ([1#8] ++ le 2 h.data.length ++ le 2 (65535 - h.data.length) ++ h.data) = Spec.Deflate.encode [.stored (List.replicate 5 false) h.data])
    (hs : ∀ c ∈ h.sheet.columns, c.1 = tag .acquisitionDate ∨ c.1 = tag .systemDate → c.2 ≠ []) :
    List.Forall₂ Stores ((placed [only h]).filter Placed.isHeader) [h] := by
  rw [hp]
  refine .cons ⟨by rw [if_neg (by rw [hk]; nofun)], hw, by rw [hd]; exact zlibOf hl hb, ?_, fun _ => hs⟩ .nil
  rw [hd]
  unfold zlib
  simp only [List.length_append]
  omega

/-- C75, violated for notes: those of a "header2", which have the tag "t" there as well, are not found; what has the tag "w" is taken
for them. -/
theorem C75_violated_notes :
    ∃ (files : Nat → Option (List Byte)) (file : List Byte) (h : Header) (x : EwfImage.State × Info × EwfImage.Files), files 1 = some file ∧
      List.Forall₂ Stores ((placed [file]).filter Placed.isHeader) [h] ∧ EwfInfo.openImage files = .ok x ∧
      valueOf [h] .notes = some (.utf16 [0x4e]) ∧ x.2.1.values.get .notes = some (.utf16 [0x57]) := by
  obtain ⟨x, h1, h2⟩ := run_ok (x := EwfInfo.openImage (filesOf (only notesTwo))) (p := fun x => decide (x.2.1.values.get .notes = some (.utf16 [0x57]))) (by decide +kernel)
  refine ⟨filesOf (only notesTwo), only notesTwo, notesTwo, x, rfl, ?_, h1, by decide, by simpa using h2⟩
  exact stores1 (n := 89 + (zlib notesTwo.data).length) (by decide +kernel) (by decide +kernel) rfl ⟨sheetWf (by decide), by decide⟩ (by decide) (by decide +kernel) (by decide)

/-- With notes only, there are none. -/
example : ∃ x, EwfInfo.openImage (filesOf (only notesOnly)) = .ok x ∧ x.2.1.values.get .notes = none ∧ valueOf [notesOnly] .notes = some (.utf16 [0x4e]) := by
  obtain ⟨x, h1, h2⟩ := run_ok (x := EwfInfo.openImage (filesOf (only notesOnly))) (p := fun x => decide (x.2.1.values.get .notes = none)) (by decide +kernel)
  exact ⟨x, h1, by simpa using h2, by decide⟩

private def lateDate : Header := wide1 [([0x6d], [0x32, 0x31, 0x34, 0x37, 0x34, 0x38, 0x33, 0x36, 0x34, 0x38])]
private def noDate : Header := wide1 [([0x6d], [])]

/-- C75, violated for dates: an image with a date after 2038-01-19, here 2147483648 seconds, makes opening panic; an empty date is read as
1970-01-01. -/
theorem C75_violated_date :
    (∃ (files : Nat → Option (List Byte)) (file : List Byte) (h : Header), files 1 = some file ∧
      List.Forall₂ Stores ((placed [file]).filter Placed.isHeader) [h] ∧ valueOf [h] .acquisitionDate = some (.posixTime 2147483648) ∧
      EwfInfo.openImage files = .panic) ∧
    ∃ (files : Nat → Option (List Byte)) (file : List Byte) (h : Header) (x : EwfImage.State × Info × EwfImage.Files), files 1 = some file ∧
      (∃ p, (placed [file]).filter Placed.isHeader = [p] ∧ ZlibOf p.data h.data) ∧ h.Wf ∧ valueOf [h] .acquisitionDate = none ∧
      EwfInfo.openImage files = .ok x ∧ x.2.1.values.get .acquisitionDate = some (.posixTime 0) := by
  refine ⟨⟨filesOf (only lateDate), only lateDate, lateDate, rfl, ?_, by decide, ?_⟩, ?_⟩
  · exact stores1 (n := 89 + (zlib lateDate.data).length) (by decide +kernel) (by decide +kernel) rfl ⟨sheetWf (by decide), by decide⟩ (by decide) (by decide +kernel) (by decide)
  · have : (match EwfInfo.openImage (filesOf (only lateDate)) with | .panic => true | _ => false) = true := by decide +kernel
    cases e : EwfInfo.openImage (filesOf (only lateDate)) with
    | ok x => rw [e] at this; cases this
    | err => rw [e] at this; cases this
    | panic => rfl
  · obtain ⟨x, h1, h2⟩ := run_ok (x := EwfInfo.openImage (filesOf (only noDate))) (p := fun x => decide (x.2.1.values.get .acquisitionDate = some (.posixTime 0))) (by decide +kernel)
    refine ⟨filesOf (only noDate), only noDate, noDate, x, rfl, ⟨⟨only noDate, ⟨13, header2Kind, 89 + (zlib noDate.data).length⟩⟩, by decide +kernel, ?_⟩, ⟨sheetWf (by decide), by decide⟩, by decide, h1, by simpa using h2⟩
    have hd : Placed.data ⟨only noDate, ⟨13, header2Kind, 89 + (zlib noDate.data).length⟩⟩ = zlib noDate.data := by decide +kernel
    rw [hd]
    exact zlibOf (by decide) (by decide +kernel)

/-- The text of a header with a case number of 300 letters, and its zlib stream. -/
private def longText : List Byte := [0x31#8, 0x0a#8, 0x6d#8, 0x61#8, 0x69#8, 0x6e#8, 0x0a#8, 0x63#8, 0x0a#8] ++ List.replicate 300 0x61#8 ++ [0x0a#8, 0x0a#8]
private def longZlib : List Byte :=
  [0x78#8, 0xda#8, 0x33#8, 0xe4#8, 0xca#8, 0x4d#8, 0xcc#8, 0xcc#8, 0xe3#8, 0x4a#8, 0xe6#8, 0x4a#8, 0x1c#8, 0x05#8, 0x44#8, 0x03#8, 0x2e#8, 0x2e#8, 0x00#8,
    0x8b#8, 0x04#8, 0x74#8, 0x18#8]

/-- C75, violated for text that was compressed well: an image is refused if the text of a header is more than four times as long as its
compressed data, here 311 bytes from 23. The same text as a stored block is accepted. -/
theorem C75_violated_ratio :
    ∃ (text data : List Byte) (files files' : Nat → Option (List Byte)) (p p' : Placed) (x : EwfImage.State × Info × EwfImage.Files),
      Zlib.decompress data (List.replicate text.length 0#8) = .ok (text, text.length) ∧ files 1 = some p.file ∧ files' 1 = some p'.file ∧
      (placed [p.file]).filter Placed.isHeader = [p] ∧ p.data = data ∧ (placed [p'.file]).filter Placed.isHeader = [p'] ∧ ZlibOf p'.data text ∧
      EwfInfo.openImage files = .err ∧ EwfInfo.openImage files' = .ok x ∧ x.2.1.values.get .caseNumber = some (.byte (List.replicate 300 0x61#8)) := by
  obtain ⟨x, h1, h2⟩ := run_ok (x := EwfInfo.openImage (filesOf (fileOf [(headerKind, zlib longText)])))
    (p := fun x => decide (x.2.1.values.get .caseNumber = some (.byte (List.replicate 300 0x61#8)))) (by decide +kernel)
  refine ⟨longText, longZlib, filesOf (fileOf [(headerKind, longZlib)]), filesOf (fileOf [(headerKind, zlib longText)]),
    ⟨fileOf [(headerKind, longZlib)], ⟨13, headerKind, 112⟩⟩, ⟨fileOf [(headerKind, zlib longText)], ⟨13, headerKind, 411⟩⟩, x, by decide +kernel, rfl, rfl,
    by decide +kernel, by decide +kernel, by decide +kernel, ?_, ?_, h1, of_decide_eq_true h2⟩
  · have hd : Placed.data ⟨fileOf [(headerKind, zlib longText)], ⟨13, headerKind, 411⟩⟩ = zlib longText := by decide +kernel
    rw [hd]
    exact zlibOf (by decide +kernel) (by decide +kernel)
  · have : (match EwfInfo.openImage (filesOf (fileOf [(headerKind, longZlib)])) with | .err => true | _ => false) = true := by decide +kernel
    cases e : EwfInfo.openImage (filesOf (fileOf [(headerKind, longZlib)])) with
    | ok x => rw [e] at this; cases this
    | err => rfl
    | panic => rw [e] at this; cases this

/-- C75, violated for sections "error2": whatever they have, nothing is read and nothing checked, because "errors2" is looked for instead. -/
theorem C75_violated_error2 (segment : Nat) (file : List Byte) (offset : Nat) (s : EwfImage.Section) (info : Info) (h : s.kind = error2Kind) :
    infoStep segment file offset s info = .ok info := by
  unfold infoStep
  rw [h]
  rw [if_neg (by decide), if_neg (by decide), if_neg (by decide), if_neg (by decide), if_neg (by decide), if_neg (by decide), if_neg (by decide),
    if_neg (by decide)]

/-- C75, violated for sections "errors2": one with the right Adler-32 of its header and more entries than there is room for makes opening
panic. -/
theorem C75_violated_entries (file : List Byte) (position size : Nat) (h1 : 520 ≤ size) (h2 : size ≤ 16777216) (hf : position + size ≤ file.length)
    (hc : Checked file position 516) (hn : size < 520 + 8 * Spec.field file position 4 + 4) : readError2 file position size = .panic := by
  unfold Spec.Ewf.Checked at hc
  unfold readError2
  rw [R.require_true (by omega), R.ok_bind, readExactAt_ok (by omega), R.ok_bind]
  have hb : (file.drop position).take size = Spec.bytesAt file position size := rfl
  have hlen : (Spec.bytesAt file position size).length = size := by
    unfold Spec.bytesAt
    rw [List.length_take, List.length_drop]
    omega
  rw [hb, R.require_true (by omega), R.ok_bind, Keramics.u32le_field (by omega), R.ok_bind, Keramics.slice_bytesAt' (n := 516) rfl (by omega), R.ok_bind,
    EwfImage.checksum_eq, R.ok_bind, EwfImage.field_bytesAt (by omega), Keramics.bytesAt_bytesAt (by omega), Nat.add_zero position, R.require_true hc, R.ok_bind,
    Keramics.u32le_field (by omega), R.ok_bind, EwfImage.field_bytesAt (by omega), Nat.add_zero position]
  unfold R.slice
  rw [if_neg (by rw [hlen]; omega)]
  rfl

/-- A section with one entry too many. -/
example : let file := checked (le 4 1 ++ List.replicate 512 0#8)
    file.length = 520 ∧ Checked file 0 516 ∧ file.length < 520 + 8 * Spec.field file 0 4 + 4 ∧ readError2 file 0 520 = .panic := by
  have h : Checked (checked (le 4 1 ++ List.replicate 512 0#8)) 0 516 ∧ Spec.field (checked (le 4 1 ++ List.replicate 512 0#8)) 0 4 = 1 ∧
      (checked (le 4 1 ++ List.replicate 512 0#8)).length = 520 := by
    unfold Spec.Ewf.Checked
    decide +kernel
  exact ⟨h.2.2, h.1, by rw [h.2.1, h.2.2]; decide, C75_violated_entries _ _ _ (by omega) (by omega) (by rw [h.2.2]) h.1 (by rw [h.2.1]; decide)⟩

end Keramics.Props
