import Verif.Model.ImageHash
import Verif.Spec.ImageHash
import Verif.Props.EwfInfo
import Verif.Props.SparseImage
import Verif.Props.Udif
import Verif.Props.Formats
import Verif.Props.Streams

/-!
# C79: the hash command of the image tool
-/

namespace Keramics.Props
open Keramics Keramics.Spec Keramics.ImageHash
open Keramics.Sigscan (Format signaturesOf scanFormats)

/-! ## The format of the source -/

private theorem scan_results {data : List Byte} (h1 : 520 ≤ data.length) (h2 : data.length < 2 ^ 63) :
    ∃ p : Format → Bool, (∀ f, p f = true ↔ f ∈ imageFormats ∧ HasFormat data f) ∧
      scanImages data = if (allFormats.filter p).length > 1 then .err else .ok (allFormats.filter p).head? := by
  obtain ⟨scanner, found, hb, hs, hf⟩ := C60_images_partial data h1 h2
  classical
  refine ⟨fun f => decide (found f), fun f => by simp [hf, imageFormats], ?_⟩
  unfold scanImages
  rw [show imageFormats = [Format.ewf, .qcow, .sparseImage, .udif, .vhd, .vhdx] from rfl, hb, R.ok_bind, hs, R.ok_bind]

private theorem scan_one {data : List Byte} (h1 : 520 ≤ data.length) (h2 : data.length < 2 ^ 63) {f : Format} (hf : f ∈ imageFormats)
    (hhas : HasFormat data f) (honly : ∀ g ∈ imageFormats, HasFormat data g → g = f) : scanImages data = .ok (some f) := by
  obtain ⟨p, hp, e⟩ := scan_results h1 h2
  have hp' : ∀ g, p g = decide (g = f) := by
    intro g
    rw [Bool.eq_iff_iff, hp, decide_eq_true_iff]
    exact ⟨fun h => honly g h.1 h.2, fun h => h ▸ ⟨hf, hhas⟩⟩
  have : allFormats.filter p = [f] := by
    rw [show p = fun g => decide (g = f) from funext hp']
    cases f <;> rfl
  rw [e, this]
  rfl

/-! ## Reading to the end -/

/-- From here on all reads are those of a stream with the contents. -/
private def Reads {σ : Type} (r : Reader σ) (C : List Byte) (s : Stream σ) (p : Nat) : Prop :=
  ∀ ops : List StreamOp, (∀ op ∈ ops, ∃ n, op = .read n) →
    ∃ tr, Stream.run r s ops = .ok tr ∧ tr.map Prod.fst = ops ∧ Trace true C C.length p tr

private theorem reads_step {σ : Type} {r : Reader σ} {C : List Byte} {s : Stream σ} {p : Nat} (h : Reads r C s p) (n : Nat) :
    ∃ out s', s.read r n = .ok (out, s') ∧ readOk false C C.length p n out ∧ Reads r C s' (p + out.length) := by
  have key : ∀ ops : List StreamOp, (∀ op ∈ ops, ∃ n, op = .read n) →
      ∃ out s', s.read r n = .ok (out, s') ∧ readOk true C C.length p n out ∧
        ∃ tr, Stream.run r s' ops = .ok tr ∧ tr.map Prod.fst = ops ∧ Trace true C C.length (p + out.length : Nat) tr := by
    intro ops hops
    obtain ⟨tr, hr, ht, htr⟩ := h (.read n :: ops) (by
      intro op hop
      rcases List.mem_cons.1 hop with rfl | hop
      · exact ⟨n, rfl⟩
      · exact hops op hop)
    unfold Stream.run at hr
    obtain ⟨⟨o, s'⟩, hstep, hr⟩ := R.bind_eq_ok.1 hr
    obtain ⟨rest, hrest, hr⟩ := R.bind_eq_ok.1 hr
    cases hr
    simp only [Stream.step] at hstep
    obtain ⟨⟨out, s''⟩, hread, hstep⟩ := R.bind_eq_ok.1 hstep
    cases hstep
    cases htr with
    | read h1 h2 =>
      refine ⟨out, _, hread, h1, rest, hrest, by simpa using ht, ?_⟩
      rw [Nat.cast_add]
      exact h2
  obtain ⟨out, s', h1, h2, -⟩ := key [] (by simp)
  refine ⟨out, s', h1, ?_, fun ops hops => ?_⟩
  · unfold readOk at h2 ⊢
    split
    · rename_i hc
      rw [if_pos hc] at h2
      exact ⟨h2.1, h2.2.1, by simp⟩
    · rename_i hc
      rw [if_neg hc] at h2
      exact h2
  · obtain ⟨out', s'', h1', -, h3⟩ := key ops hops
    rw [h1] at h1'
    cases h1'
    exact h3

/-- The MD5 of the loop, for media of which every state is a stream. -/
private theorem media_md5 {σ : Type} {w : World} {r : Reader σ} (wrap : Stream σ → Media) (hwrap : ∀ s n, read w (wrap s) n = (do
      let (out, s) ← s.read r n
      return (out, wrap s))) {C : List Byte} (hC : C.length < 2 ^ 61) {s : Stream σ} (hs : Reads r C s 0) {fuel : Nat} (hfuel : C.length < fuel) :
    Hasher.loop Digest.md5 (read w) fuel (Digest.Ctx.new Digest.md5) (wrap s) = .ok (Spec.md5 C) := by
  refine hash_loop Digest.md5 C (read w) (fun m p => ∃ s, m = wrap s ∧ Reads r C s p) ?_ (Spec.md5 C)
    (fun ch e => ?_) fuel [] _ (wrap s) 0 ⟨s, rfl, hs⟩ (Nat.zero_le _) (by simp) rfl (by omega)
  · rintro _ p n ⟨s, rfl, hs⟩
    obtain ⟨out, s', h1, h2, h3⟩ := reads_step hs n
    exact ⟨out, wrap s', by rw [hwrap, h1]; rfl, h2, s', rfl, h3⟩
  · subst e
    exact (C04_md5_chunked ch hC)

private theorem budget_reads : ∀ {ops : List StreamOp}, (∀ op ∈ ops, ∃ n, op = .read n) → seekBudget ops = 0
  | [], _ => rfl
  | op :: ops, h => by
    obtain ⟨n, rfl⟩ := h op (by simp)
    exact budget_reads (ops := ops) fun o ho => h o (by simp [ho])

private theorem reads_small {n : Nat} {ops : List StreamOp} (h : n < 2 ^ 61) (hops : ∀ op ∈ ops, ∃ k, op = .read k) : n + seekBudget ops < 2 ^ 63 := by
  rw [budget_reads hops]
  omega

/-- What is printed: an empty line, the MD5 and the stored hashes. -/
private theorem command_eq {σ : Type} {w : World} (h1 : 520 ≤ w.source.length) (h2 : w.source.length < 2 ^ 63) {f : Format} (hf : f ∈ imageFormats)
    (hhas : HasFormat w.source f) (honly : ∀ g ∈ imageFormats, HasFormat w.source g → g = f) {r : Reader σ} (wrap : Stream σ → Media)
    (hwrap : ∀ s n, read w (wrap s) n = (do
      let (out, s) ← s.read r n
      return (out, wrap s))) {C : List Byte} (hC : C.length < 2 ^ 61) {s : Stream σ} (hs : Reads r C s 0) (hopen : openMedia w f = .ok (wrap s))
    {n : Nat} (hsize : mediaSize (wrap s) = .ok n) {fuel : Nat} (hfuel : C.length < fuel) :
    hashCommand w fuel = (lines (wrap s) (Spec.md5 C), .ok ()) := by
  unfold hashCommand
  rw [scan_one h1 h2 hf hhas honly]
  simp only [HashTool.after]
  rw [hopen]
  simp only
  rw [hsize]
  simp only
  rw [media_md5 wrap hwrap hC hs hfuel]

/-! ## The lines -/

private theorem hexDigit_eq : ∀ d, d < 16 → (Hasher.hexDigit d).toNat = if d < 10 then 0x30 + d else 0x61 + (d - 10) := by decide

private theorem hex_eq (bytes : List Byte) : (Hasher.formatAsString bytes).map Char.toNat = hexText bytes := by
  unfold Hasher.formatAsString hexText
  rw [List.map_flatMap]
  congr 1
  funext b
  have := b.isLt
  simp only [List.map_cons, List.map_nil]
  rw [hexDigit_eq _ (by omega), hexDigit_eq _ (by omega)]

private theorem stored_eq (label : String) (n : Nat) (hash : List Byte) :
    storedLine label n (some hash) = ((storedHash n hash).map fun h => codePoints label ++ hexText h).toList := by
  unfold storedLine storedHash hashLine
  by_cases h : hash = List.replicate n 0#8
  · simp [h]
  · simp [h, hex_eq]

private theorem lines_none {m : Media} (h1 : md5Hash m = none) (h2 : sha1Hash m = none) (md5 : List Byte) :
    lines m md5 = hashReport md5 none none := by
  unfold lines hashReport
  rw [h1, h2]
  simp [storedLine, hashLine, hex_eq]

private theorem lines_some {m : Media} {a b : List Byte} (h1 : md5Hash m = some a) (h2 : sha1Hash m = some b) (md5 : List Byte) :
    lines m md5 = hashReport md5 (storedHash 16 a) (storedHash 20 b) := by
  unfold lines hashReport
  rw [h1, h2, stored_eq, stored_eq]
  simp [hashLine, hex_eq]

private theorem only_image {data : List Byte} {f : Format} (h : OnlyImage data f) :
    f ∈ imageFormats ∧ HasFormat data f ∧ ∀ g ∈ imageFormats, HasFormat data g → g = f := by
  refine ⟨?_, h.2.1, fun g hg => h.2.2 g ?_⟩
  · have := h.1
    unfold IsImage at this
    simpa [imageFormats] using this
  · unfold IsImage
    simpa [imageFormats] using hg

/-- Whether data has the bytes of an image format. -/
private def hasB (data : List Byte) : Format → Bool
  | .ewf => data.take 8 == ascii "EVF" ++ [9#8, 13#8, 10#8, 255#8, 0#8]
  | .qcow => [1#8, 2#8, 3#8].any fun v => data.take 8 == ascii "QFI" ++ [0xfb#8, 0#8, 0#8, 0#8, v]
  | .sparseImage => data.take 4 == ascii "sprs"
  | .udif => decide (512 ≤ data.length) && ((data.drop (data.length - 512)).take 4 == ascii "koly")
  | .vhd => decide (512 ≤ data.length) && ((data.drop (data.length - 512)).take 8 == ascii "conectix")
  | .vhdx => data.take 8 == ascii "vhdxfile"
  | _ => false

private theorem hasB_iff {data : List Byte} : ∀ {f : Format}, IsImage f → (hasB data f = true ↔ HasFormat data f) := by
  rintro f (rfl | rfl | rfl | rfl | rfl | rfl)
  · simp [hasB, HasFormat, HasAt, ascii]
  · simp [hasB, HasFormat, HasAt, ascii]
  · simp [hasB, HasFormat, HasAt, ascii]
  · simp [hasB, HasFormat, HasAt, ascii]
  · simp [hasB, HasFormat, HasAt, ascii]
  · simp [hasB, HasFormat, HasAt, ascii]

private theorem only_of {data : List Byte} {f : Format} (hf : IsImage f)
    (h : ([Format.ewf, .qcow, .sparseImage, .udif, .vhd, .vhdx].filter (hasB data)) = [f]) : OnlyImage data f := by
  have key : ∀ g, IsImage g → (HasFormat data g ↔ g = f) := by
    intro g hg
    rw [← hasB_iff hg]
    have : g ∈ [Format.ewf, .qcow, .sparseImage, .udif, .vhd, .vhdx].filter (hasB data) ↔ g = f := by rw [h]; simp
    rw [← this, List.mem_filter]
    refine ⟨fun h => ⟨?_, h⟩, fun h => h.2⟩
    unfold IsImage at hg
    simpa using hg
  exact ⟨hf, (key f hf).2 rfl, fun g hg h => (key g hg).1 h⟩

/-- C79, in part: for a source that is a sparse image the MD5 of the media is printed: what the bands have, and zeros for bands that are
not stored. Missing: files that end inside of a band (`C43_violated_truncated`). -/
theorem C79_sparseimage_partial (w : World) (hlen : w.source.length < 2 ^ 63) (hf : OnlyImage w.source .sparseImage)
    (hh : SparseImage.HeaderOk w.source) (ht : SparseImage.TableOk w.source) (hin : SparseImage.Inside w.source)
    (hm : SparseImage.sectors w.source * 512 < 2 ^ 61) (fuel : Nat) (hfuel : SparseImage.sectors w.source * 512 < fuel) :
    hashCommand w fuel = (hashReport (Spec.md5 (SparseImage.contents w.source)) none none, .ok ()) := by
  obtain ⟨image, hopen⟩ := (C43_open w.source).2.2 ⟨hh, ht⟩
  have hl : (SparseImage.contents w.source).length = SparseImage.sectors w.source * 512 := by simp [SparseImage.contents]
  obtain ⟨h1, h2, h3⟩ := only_image hf
  rw [command_eq (n := image.mediaSize) (Nat.le_trans (by omega) hh.1) hlen h1 h2 h3 (r := Keramics.SparseImage.stream w.source image) (.sparseImage image) (fun _ _ => rfl)
    (C := SparseImage.contents w.source) (by rw [hl]; exact hm) (s := ⟨(), 0⟩) ?_ ?_ rfl (by rw [hl]; exact hfuel), lines_none rfl rfl]
  · intro ops hops
    rw [hl]
    exact C43_contents w.source hlen image hopen hin ops (reads_small hm hops)
  · unfold openMedia
    rw [hopen]
    rfl

private theorem only43 : OnlyImage file43 .sparseImage := only_of (by simp [IsImage]) (by decide +kernel)

/-- The hypotheses are met: an image of which the first and the third band are stored. -/
example (w : World) (hw : w.source = file43) : ∃ fuel, hashCommand w fuel = (hashReport (Spec.md5 (SparseImage.contents file43)) none none, .ok ()) := by
  obtain ⟨h1, h2, h3, -⟩ := example43
  have hm : SparseImage.sectors file43 * 512 = 1536 := by decide +kernel
  have hlen := file43_len
  refine ⟨1537, ?_⟩
  have := C79_sparseimage_partial w (by rw [hw, hlen]; decide) (by rw [hw]; exact only43) (by rw [hw]; exact h1) (by rw [hw]; exact h2) (by rw [hw]; exact h3)
    (by rw [hw, hm]; decide) 1537 (by rw [hw, hm]; decide)
  rwa [hw] at this

/-- C79, in part: for a source that is an UDIF image with a property list the MD5 of the media is printed: what the entries of its tables
stand for. The conditions are those of `C41_contents_partial`. -/
theorem C79_udif_partial (w : World) (h520 : 520 ≤ w.source.length) (hlen : w.source.length < 2 ^ 63) (hf : OnlyImage w.source .udif)
    (tables : List (List Byte)) (hplist : w.plist (Udif.plistBytes w.source) = .ok tables) (hsize : Udif.plistSize w.source ≠ 0)
    (image : Keramics.Udif.Image) (hopen : Keramics.Udif.openImage w.plist w.source = .ok image)
    (hr : ∀ e ∈ Udif.usedOf (tables.map Udif.tableOf), Udif.Readable w.decompress w.source e) (hcon : Udif.Consistent (tables.map Udif.tableOf))
    (hm : Udif.sectorsOf (Udif.usedOf (tables.map Udif.tableOf)) * 512 < 2 ^ 61) (fuel : Nat)
    (hfuel : Udif.sectorsOf (Udif.usedOf (tables.map Udif.tableOf)) * 512 < fuel) :
    hashCommand w fuel = (hashReport (Spec.md5 (Udif.contents w.decompress w.source (tables.map Udif.tableOf))) none none, .ok ()) := by
  have ho := Keramics.Udif.openImage_sat w.plist w.source hplist hsize (Keramics.Udif.sectors_bound (b := 0) (reads_small (ops := []) hm (by simp))) hopen
  have hl : (Udif.contents w.decompress w.source (tables.map Udif.tableOf)).length = _ := Keramics.Udif.media_length hr
  obtain ⟨h1, h2, h3⟩ := only_image hf
  rw [command_eq (n := image.mediaSize) h520 hlen h1 h2 h3 (r := Keramics.Udif.stream w.decompress w.source image) (.udif image) (fun _ _ => rfl)
    (C := Udif.contents w.decompress w.source (tables.map Udif.tableOf)) (by rw [hl]; exact hm) (s := ⟨Keramics.Udif.newCache, 0⟩) ?_ ?_ rfl (by rw [hl]; exact hfuel), lines_none rfl rfl]
  · intro ops hops
    rw [hl]
    exact C41_contents_partial w.plist w.decompress w.source hlen tables hplist hsize image hopen hr hcon ops (reads_small hm hops)
  · unfold openMedia
    rw [hopen, R.ok_bind]
    simp [ho.has]

/-- The conditions on the source are met by the image that meets those of `C41_contents_partial`. -/
example : OnlyImage file41 .udif ∧ 520 ≤ file41.length := ⟨only_of (by simp [IsImage]) (by decide +kernel), by decide +kernel⟩

/-- C79 for UDIF images without a property list: the MD5 of the data fork is printed. -/
theorem C79_udif_fork (w : World) (h520 : 520 ≤ w.source.length) (hlen : w.source.length < 2 ^ 63) (hf : OnlyImage w.source .udif)
    (hfoot : Udif.FooterOk w.source) (hsize : Udif.plistSize w.source = 0) (hin : Udif.forkOffset w.source + Udif.forkSize w.source ≤ w.source.length)
    (hm : Udif.forkSize w.source < 2 ^ 61) (fuel : Nat) (hfuel : Udif.forkSize w.source < fuel) :
    hashCommand w fuel = (hashReport (Spec.md5 (Spec.bytesAt w.source (Udif.forkOffset w.source) (Udif.forkSize w.source))) none none, .ok ()) := by
  obtain ⟨image, hopen, -, hi⟩ := (Keramics.Udif.openFork_good w.plist w.source hsize (by omega)).exists_ok hfoot
  have hl : (Spec.bytesAt w.source (Udif.forkOffset w.source) (Udif.forkSize w.source)).length = _ := bytesAt_length hin
  obtain ⟨h1, h2, h3⟩ := only_image hf
  rw [command_eq (n := image.mediaSize) h520 hlen h1 h2 h3 (r := Keramics.Udif.forkStream w.source image) (.udifFork image) (fun _ _ => rfl)
    (C := Spec.bytesAt w.source (Udif.forkOffset w.source) (Udif.forkSize w.source)) (by rw [hl]; exact hm) (s := ⟨(), 0⟩) ?_ ?_ rfl (by rw [hl]; exact hfuel), lines_none rfl rfl]
  · intro ops hops
    rw [hl]
    exact (C41_fork w.plist w.source hsize (by omega)).2.2 image hopen hin ops (reads_small hm hops)
  · unfold openMedia
    rw [hopen, R.ok_bind, hi]
    rfl

/-- Eight bytes and a footer without a property list. -/
private def fork79 : List Byte :=
  [1#8, 2#8, 3#8, 4#8, 5#8, 6#8, 7#8, 8#8] ++ [0x6b#8, 0x6f#8, 0x6c#8, 0x79#8, 0#8, 0#8, 0#8, 4#8] ++ List.replicate 31 0#8 ++ [8#8] ++
    List.replicate 472 0#8

/-- The hypotheses are met. -/
example : OnlyImage fork79 .udif ∧ 520 ≤ fork79.length ∧ Udif.FooterOk fork79 ∧ Udif.plistSize fork79 = 0 ∧
    Spec.bytesAt fork79 (Udif.forkOffset fork79) (Udif.forkSize fork79) = [1#8, 2#8, 3#8, 4#8, 5#8, 6#8, 7#8, 8#8] ∧
    Udif.forkOffset fork79 + Udif.forkSize fork79 ≤ fork79.length :=
  ⟨only_of (by simp [IsImage]) (by decide +kernel), by decide +kernel, ⟨by decide +kernel, by decide +kernel, by decide +kernel⟩, by decide +kernel,
    by decide +kernel, by decide +kernel⟩

/-- C79, in part: for a source that is the first segment of an EWF image the MD5 of the media is printed, and the MD5 and SHA1 of the last
sections that have one. The conditions are those of `C75_contents_partial`. -/
theorem C79_ewf_partial (w : World) (hunzip : w.unzip = unzip) (h520 : 520 ≤ w.source.length) (hlen : w.source.length < 2 ^ 63) (hf : OnlyImage w.source .ewf)
    (segments : List (List Byte)) (hne : segments ≠ []) (hfiles : ∀ i, i < segments.length → w.segments (i + 1) = segments[i]?)
    (hlast : ∀ i, (h : i < segments.length) → (Ewf.IsLast segments[i] ↔ i + 1 = segments.length))
    (hlens : ∀ file ∈ segments, file.length < 2 ^ 63)
    (image : EwfImage.State) (info : EwfInfo.Info) (cache : EwfImage.Files) (hopen : EwfInfo.openImage w.segments = .ok (image, info, cache))
    (hn : segments.length ≤ 16) (hapart : Ewf.Apart segments) (plain : Ewf.Chunk → List Byte)
    (hr : ∀ x, x < (Ewf.volume segments).mediaSize → ∃ c, (Ewf.chunks segments)[x / (Ewf.volume segments).chunkSize]? = some c ∧
      (c.compressed = false → c.offset + x % (Ewf.volume segments).chunkSize < (Ewf.segmentFile segments c.segment).length) ∧
      (c.compressed = true → c.size < 2 ^ 32 ∧ c.offset + c.size ≤ (Ewf.segmentFile segments c.segment).length ∧
        ZlibOf (Spec.bytesAt (Ewf.segmentFile segments c.segment) c.offset c.size) (plain c) ∧ (plain c).length ≤ (Ewf.volume segments).chunkSize))
    (hm : (Ewf.volume segments).mediaSize < 2 ^ 61) (fuel : Nat) (hfuel : (Ewf.volume segments).mediaSize < fuel) :
    hashCommand w fuel = (hashReport (Spec.md5 ((List.range (Ewf.volume segments).mediaSize).map fun x =>
        match (Ewf.chunks segments)[x / (Ewf.volume segments).chunkSize]? with
        | none => 0#8
        | some c =>
          if c.compressed then (plain c).getD (x % (Ewf.volume segments).chunkSize) 0#8
          else (Ewf.segmentFile segments c.segment).getD (c.offset + x % (Ewf.volume segments).chunkSize) 0#8))
      (storedHash 16 (Ewf.md5 (Ewf.placed segments))) (storedHash 20 (Ewf.sha1 (Ewf.placed segments))), .ok ()) := by
  obtain ⟨h1, h2, h3⟩ := only_image hf
  have hh := C75_hashes w.segments segments hne hfiles hlast image info cache hopen
  have ht := C75_contents_partial w.segments segments hne hfiles hlast hlens image info cache hopen hn hapart plain hr
  have hl : ∀ g : Nat → Byte, ((List.range (Ewf.volume segments).mediaSize).map g).length = (Ewf.volume segments).mediaSize := by simp
  generalize hC : ((List.range (Ewf.volume segments).mediaSize).map fun x =>
        match (Ewf.chunks segments)[x / (Ewf.volume segments).chunkSize]? with
        | none => 0#8
        | some c =>
          if c.compressed then (plain c).getD (x % (Ewf.volume segments).chunkSize) 0#8
          else (Ewf.segmentFile segments c.segment).getD (c.offset + x % (Ewf.volume segments).chunkSize) 0#8) = C at ht ⊢
  have hl : C.length = (Ewf.volume segments).mediaSize := by rw [← hC, hl]
  rw [command_eq (n := image.mediaSize) h520 hlen h1 h2 h3 (r := EwfImage.stream w.unzip image) (.ewf image info) (fun _ _ => rfl)
    (C := C) (by rw [hl]; exact hm) (s := ⟨EwfImage.caches cache, 0⟩) ?_ ?_ rfl (by rw [hl]; exact hfuel), lines_some rfl rfl, hh.1, hh.2.1]
  · intro ops hops
    rw [hl, hunzip]
    exact ht ops (reads_small hm hops)
  · unfold openMedia
    rw [hopen]
    rfl

private theorem only75 : OnlyImage file75 .ewf := only_of (by simp [IsImage]) (by decide +kernel)

/-- The hypotheses are met: an image of four bytes in a compressed chunk, with an MD5 in a section and an SHA1 in another. -/
example (w : World) (hw : w.source = file75) (hs : w.segments = filesOf file75) (hu : w.unzip = unzip) : ∃ C fuel,
    hashCommand w fuel = (hashReport (Spec.md5 C) (some (List.replicate 15 0x11#8 ++ [0x99#8])) (some (List.replicate 20 0x33#8)), .ok ()) := by
  obtain ⟨h1, h2, h3, h4⟩ := example75
  obtain ⟨⟨image, info, cache⟩, hopen, -⟩ := open75
  have hl : file75.length = 3170 := chunk75.2
  have := C79_ewf_partial w hu (by rw [hw, hl]; decide) (by rw [hw, hl]; decide) (by rw [hw]; exact only75) [file75] (by simp) (by rw [hs]; exact files_of _) last75 h2
    image info cache (by rw [hs]; exact hopen) (by simp) h1 (fun _ => [5#8, 6#8, 7#8, 8#8]) h4 (by rw [h3]; decide) 5 (by rw [h3]; decide)
  rw [hashes75.1, hashes75.2.1] at this
  exact ⟨_, 5, this⟩

/-- C79: the tool prints no hash, and fails, for a source that is no storage media image, or is one of several formats. -/
theorem C79_refused (w : World) (h520 : 520 ≤ w.source.length) (hlen : w.source.length < 2 ^ 63) (hf : ¬ ∃ f, OnlyImage w.source f) (fuel : Nat) :
    hashCommand w fuel = ([], .err) := by
  obtain ⟨p, hp, e⟩ := scan_results h520 hlen
  unfold hashCommand
  rw [e]
  split
  · rfl
  · rename_i hc
    cases hr : allFormats.filter p with
    | nil => rfl
    | cons f rest =>
      refine absurd ⟨f, ?_⟩ hf
      have hrest : rest = [] := by
        rw [hr] at hc
        simpa using hc
      subst hrest
      have hmem : ∀ g, p g = true → g = f := by
        intro g hg
        have : g ∈ allFormats.filter p := List.mem_filter.2 ⟨by cases g <;> decide, hg⟩
        rw [hr] at this
        simpa using this
      have hpf : p f = true := by
        have : f ∈ allFormats.filter p := by rw [hr]; simp
        exact (List.mem_filter.1 this).2
      obtain ⟨h1, h2⟩ := (hp f).1 hpf
      refine ⟨?_, h2, fun g hg hgf => hmem g ((hp g).2 ⟨?_, hgf⟩)⟩
      · unfold IsImage
        simpa [imageFormats] using h1
      · unfold IsImage at hg
        simpa [imageFormats] using hg

/-- Such sources: one without bytes of a format, and a QCOW image that ends like a VHD image. -/
example : (¬ ∃ f, OnlyImage (List.replicate 520 0#8) f) ∧
    ¬ ∃ f, OnlyImage ([0x51#8, 0x46#8, 0x49#8, 0xfb#8, 0#8, 0#8, 0#8, 2#8] ++ ascii "conectix" ++ List.replicate 504 0#8) f := by
  constructor
  · rintro ⟨f, h1, h2, -⟩
    have h := (hasB_iff h1).2 h2
    have : ([Format.ewf, .qcow, .sparseImage, .udif, .vhd, .vhdx].filter (hasB (List.replicate 520 0#8))) = [] := by decide +kernel
    have hm : f ∈ [Format.ewf, .qcow, .sparseImage, .udif, .vhd, .vhdx].filter (hasB (List.replicate 520 0#8)) :=
      List.mem_filter.2 ⟨by unfold IsImage at h1; simpa using h1, h⟩
    rw [this] at hm
    cases hm
  · rintro ⟨f, h1, h2, h3⟩
    have e1 := h3 .qcow (by simp [IsImage]) ((hasB_iff (by simp [IsImage])).1 (by decide +kernel))
    have e2 := h3 .vhd (by simp [IsImage]) ((hasB_iff (by simp [IsImage])).1 (by decide +kernel))
    rw [← e1] at e2
    cases e2

/-- C79 does not hold for the formats with layers: for every QCOW, VHD or VHDX image that can be opened the tool ends in a panic, without
a hash. -/
theorem C79_violated_layers (w : World) (h520 : 520 ≤ w.source.length) (hlen : w.source.length < 2 ^ 63) (f : Format) (hf : OnlyImage w.source f)
    (hl : f = .qcow ∨ f = .vhd ∨ f = .vhdx) (hopen : w.layers f = .ok ()) (fuel : Nat) : hashCommand w fuel = ([], .panic) := by
  obtain ⟨h1, h2, h3⟩ := only_image hf
  unfold hashCommand
  rw [scan_one h520 hlen h1 h2 h3]
  rcases hl with rfl | rfl | rfl <;> simp [HashTool.after, openMedia, hopen, mediaSize]

/-- The hypotheses are met. -/
example : OnlyImage ([0x51#8, 0x46#8, 0x49#8, 0xfb#8, 0#8, 0#8, 0#8, 2#8] ++ List.replicate 512 0#8) .qcow :=
  only_of (by simp [IsImage]) (by decide +kernel)

private theorem hexText_cons (b : Byte) (bs : List Byte) : hexText (b :: bs) = (if b.toNat / 16 < 10 then 0x30 + b.toNat / 16 else 0x61 + (b.toNat / 16 - 10)) ::
    (if b.toNat % 16 < 10 then 0x30 + b.toNat % 16 else 0x61 + (b.toNat % 16 - 10)) :: hexText bs := rfl

private theorem hexText_inj : ∀ {a b : List Byte}, hexText a = hexText b → a = b
  | [], [], _ => rfl
  | [], _ :: _, h => by cases h
  | _ :: _, [], h => by cases h
  | x :: a, y :: b, h => by
    rw [hexText_cons, hexText_cons] at h
    injection h with h1 h
    injection h with h2 h
    have hx := x.isLt
    have hy := y.isLt
    have : x = y := by
      apply BitVec.eq_of_toNat_eq
      split at h1 <;> split at h1 <;> split at h2 <;> split at h2 <;> omega
    rw [this, hexText_inj h]

/-- C79: the report tells whether the image is intact. The digits that are printed for the calculated and the stored MD5 are the same if and
only if the hashes are. -/
theorem C79_compare (calculated md5 : List Byte) (sha1 : Option (List Byte)) :
    let report := hashReport calculated (some md5) sha1
    ∃ a b, report[1]? = some (codePoints "Calculated MD5 hash\t: " ++ a) ∧ report[2]? = some (codePoints "Stored MD5 hash\t\t: " ++ b) ∧
      (a = b ↔ calculated = md5) :=
  ⟨_, _, rfl, rfl, hexText_inj, fun h => by rw [h]⟩

end Keramics.Props
