import Verif.Model.PlistFiles
import Verif.Props.Adc
import Verif.Props.Bzip2
import Verif.Props.Lzfse
import Verif.Props.SparseBundle
import Verif.Props.Udif
import Verif.Props.XmlPlist
import Verif.Props.Zlib

/-! Property theorems: the property lists of disk images (C72). -/

namespace Keramics.PlistFiles

open Spec.Utf8 (encode)

theorem ofNat_toNat {n : Nat} (h : n < 0xd800 ∨ (0xdfff < n ∧ n < 0x110000)) : (Char.ofNat n).toNat = n := by
  unfold Char.ofNat
  rw [dif_pos (show n.isValidChar from h)]
  rfl

theorem byte_toNat {n : Nat} (h : n < 256) : (BitVec.ofNat 8 n).toNat = n := by
  rw [BitVec.toNat_ofNat]
  exact Nat.mod_eq_of_lt h

theorem goesOn_iff (b : Byte) : goesOn b = false ↔ ¬ (0x80 ≤ b.toNat ∧ b.toNat < 0xc0) := by
  unfold goesOn
  simp only [decide_eq_false_iff_not]

theorem goesOn_of {n : Nat} (h : n < 64) : goesOn (BitVec.ofNat 8 (0x80 + n)) = true := by
  unfold goesOn
  rw [byte_toNat (by omega)]
  simp only [decide_eq_true_eq]
  omega

theorem byte_eq {a : Byte} {n : Nat} (h : a.toNat = n) : BitVec.ofNat 8 n = a := by
  rw [← h]
  exact BitVec.ofNat_toNat 8 a |>.trans (by simp)

/-- One character. -/
theorem fromUtf8_char (x : Char) (rest : List Byte) : fromUtf8 (encode x.toNat ++ rest) = (fromUtf8 rest).map (x :: ·) := by
  have hv : x.toNat < 0xd800 ∨ (0xdfff < x.toNat ∧ x.toNat < 0x110000) := x.valid
  have hx : x = Char.ofNat x.toNat := (Char.ofNat_toNat x).symm
  generalize x.toNat = n at hv hx
  subst hx
  unfold encode
  by_cases h1 : n < 0x80
  · rw [if_pos h1]
    simp only [List.map_cons, List.map_nil, List.singleton_append]
    rw [fromUtf8.eq_def]
    simp only
    rw [byte_toNat (by omega), if_pos h1]
  · rw [if_neg h1]
    by_cases h2 : n < 0x800
    · rw [if_pos h2]
      simp only [List.map_cons, List.map_nil, List.cons_append, List.nil_append]
      rw [fromUtf8.eq_def]
      simp only
      rw [byte_toNat (by omega), if_neg (by omega)]
      rw [goesOn_of (by omega), if_neg (by simp), if_pos (by omega), if_pos (by omega), byte_toNat (by omega)]
      rw [show (192 + n / 64 - 192) * 64 + (128 + n % 64 - 128) = n by omega]
    · rw [if_neg h2]
      by_cases h3 : n < 0x10000
      · rw [if_pos h3]
        simp only [List.map_cons, List.map_nil, List.cons_append, List.nil_append]
        rw [fromUtf8.eq_def]
        simp only
        rw [byte_toNat (by omega), if_neg (by omega)]
        rw [goesOn_of (by omega), if_neg (by simp), if_neg (by omega), goesOn_of (by omega), if_neg (by simp), if_pos (by omega), byte_toNat (by omega), byte_toNat (by omega)]
        rw [show (224 + n / 4096 - 224) * 4096 + (128 + n / 64 % 64 - 128) * 64 + (128 + n % 64 - 128) = n by omega]
        rw [if_pos (by omega)]
      · rw [if_neg h3]
        simp only [List.map_cons, List.map_nil, List.cons_append, List.nil_append]
        rw [fromUtf8.eq_def]
        simp only
        rw [byte_toNat (by omega), if_neg (by omega)]
        rw [goesOn_of (by omega), if_neg (by simp), if_neg (by omega), goesOn_of (by omega), if_neg (by simp), if_neg (by omega), goesOn_of (by omega), if_neg (by simp),
          byte_toNat (by omega), byte_toNat (by omega), byte_toNat (by omega)]
        rw [show (240 + n / 262144 - 240) * 262144 + (128 + n / 4096 % 64 - 128) * 4096 + (128 + n / 64 % 64 - 128) * 64 + (128 + n % 64 - 128) = n by omega]
        rw [if_pos (by omega)]

/-- What a step finds is the encoding of a character. -/
theorem fromUtf8_step {a : Byte} {rest : List Byte} {t : List Char} (h : fromUtf8 (a :: rest) = some t) :
    ∃ x rest' t', a :: rest = encode x.toNat ++ rest' ∧ fromUtf8 rest' = some t' ∧ t = x :: t' := by
  have fin : ∀ (n : Nat) (rest' : List Byte), (n < 0xd800 ∨ (0xdfff < n ∧ n < 0x110000)) → a :: rest = encode n ++ rest' → (fromUtf8 rest').map (Char.ofNat n :: ·) = some t →
      ∃ x rest' t', a :: rest = encode x.toNat ++ rest' ∧ fromUtf8 rest' = some t' ∧ t = x :: t' := by
    intro n rest' hn he hm
    obtain ⟨t', h1, h2⟩ := Option.map_eq_some_iff.1 hm
    exact ⟨Char.ofNat n, rest', t', by rw [ofNat_toNat hn]; exact he, h1, h2.symm⟩
  have ha := a.isLt
  rw [fromUtf8.eq_def] at h
  simp only at h
  by_cases h1 : a.toNat < 0x80
  · rw [if_pos h1] at h
    refine fin _ _ (by omega) ?_ h
    unfold encode
    rw [if_pos h1]
    simp
  · rw [if_neg h1] at h
    cases rest with
    | nil => cases h
    | cons b rest =>
      simp only at h
      by_cases hb : goesOn b = false
      · rw [if_pos hb] at h; cases h
      · rw [if_neg hb] at h
        rw [goesOn_iff, Classical.not_not] at hb
        by_cases h2 : a.toNat < 0xe0
        · rw [if_pos h2] at h
          by_cases h3 : 0xc2 ≤ a.toNat
          · rw [if_pos h3] at h
            refine fin _ _ (by omega) ?_ h
            unfold encode
            rw [if_neg (by omega), if_pos (by omega)]
            simp only [List.map_cons, List.map_nil, List.cons_append, List.nil_append]
            rw [byte_eq (a := a) (by omega), byte_eq (a := b) (by omega)]
          · rw [if_neg h3] at h; cases h
        · rw [if_neg h2] at h
          cases rest with
          | nil => cases h
          | cons c rest =>
            simp only at h
            by_cases hc : goesOn c = false
            · rw [if_pos hc] at h; cases h
            · rw [if_neg hc] at h
              rw [goesOn_iff, Classical.not_not] at hc
              by_cases h3 : a.toNat < 0xf0
              · rw [if_pos h3] at h
                split at h
                · rename_i h4
                  refine fin _ _ (by omega) ?_ h
                  unfold encode
                  rw [if_neg (by omega), if_neg (by omega), if_pos (by omega)]
                  simp only [List.map_cons, List.map_nil, List.cons_append, List.nil_append]
                  rw [byte_eq (a := a) (by omega), byte_eq (a := b) (by omega), byte_eq (a := c) (by omega)]
                · cases h
              · rw [if_neg h3] at h
                cases rest with
                | nil => cases h
                | cons d rest =>
                  simp only at h
                  by_cases hd : goesOn d = false
                  · rw [if_pos hd] at h; cases h
                  · rw [if_neg hd] at h
                    rw [goesOn_iff, Classical.not_not] at hd
                    split at h
                    · rename_i h4
                      refine fin _ _ (by omega) ?_ h
                      unfold encode
                      rw [if_neg (by omega), if_neg (by omega), if_neg (by omega)]
                      simp only [List.map_cons, List.map_nil, List.cons_append, List.nil_append]
                      rw [byte_eq (a := a) (by omega), byte_eq (a := b) (by omega), byte_eq (a := c) (by omega), byte_eq (a := d) (by omega)]
                    · cases h

theorem encode_pos (n : Nat) : 0 < (encode n).length := by
  unfold encode
  split
  · simp
  · split
    · simp
    · split <;> simp

/-- Bytes are taken exactly if they are the encoding of a text. -/
theorem fromUtf8_iff (data : List Byte) (t : List Char) : fromUtf8 data = some t ↔ data = t.flatMap fun x => encode x.toNat := by
  constructor
  · intro h
    generalize hm : data.length = m
    induction m using Nat.strongRecOn generalizing data t with
    | ind m ih =>
      cases data with
      | nil => rw [fromUtf8] at h; cases h; rfl
      | cons a rest =>
        obtain ⟨x, rest', t', h1, h2, rfl⟩ := fromUtf8_step h
        have hl := congrArg List.length h1
        have hp := encode_pos x.toNat
        rw [List.length_append] at hl
        rw [h1, ih rest'.length (by omega) rest' t' h2 rfl, List.flatMap_cons]
  · rintro rfl
    induction t with
    | nil => rfl
    | cons x t ih => rw [List.flatMap_cons, fromUtf8_char, ih]; rfl

theorem tablesOf_iff (l : List XmlPlist.Object) (tables : List (List Byte)) :
    tablesOf l = .ok tables ↔ l.map (fun o => o.bytes "Data".toList) = tables.map some := by
  induction l generalizing tables with
  | nil =>
    constructor
    · intro h; cases h; rfl
    · intro h
      cases tables with
      | nil => rfl
      | cons _ _ => cases h
  | cons o l ih =>
    rw [List.map_cons]
    constructor
    · intro h
      obtain ⟨b, hb, h⟩ := R.bind_eq_ok.1 h
      obtain ⟨ts, hts, h⟩ := R.bind_eq_ok.1 h
      cases h
      rw [List.map_cons, (ih ts).1 hts]
      cases ho : o.bytes "Data".toList with
      | none => rw [ho] at hb; cases hb
      | some b' => rw [ho] at hb; cases hb; rfl
    · intro h
      cases tables with
      | nil => cases h
      | cons b tables =>
        rw [List.map_cons, List.cons.injEq] at h
        unfold tablesOf
        rw [h.1, (ih tables).2 h.2]
        rfl

theorem tablesOf_ne_panic : ∀ l : List XmlPlist.Object, tablesOf l ≠ .panic
  | [] => nofun
  | o :: l => by
    unfold tablesOf
    refine XmlPlist.bind_ne_panic ?_ fun _ _ => XmlPlist.bind_ne_panic (tablesOf_ne_panic l) fun _ _ => nofun
    cases o.bytes "Data".toList <;> nofun

theorem get?_ne_panic {α : Type} (x : Option α) : get? x ≠ .panic := by cases x <;> nofun

theorem get?_eq_ok {α : Type} {x : Option α} {v : α} : get? x = .ok v ↔ x = some v := by
  cases x with
  | none => constructor <;> nofun
  | some w =>
    constructor
    · intro h; cases h; rfl
    · intro h; cases h; rfl

end Keramics.PlistFiles

namespace Keramics.Props

open Keramics XmlPlist PlistFiles

/-- The bytes of a text. -/
def textBytes (t : List Char) : List Byte := t.flatMap fun x => Spec.Utf8.encode x.toNat

/-- C72: the block tables of a UDIF image are found exactly if the bytes of the property list are the UTF-8 of a property list whose dictionary has
a dictionary `resource-fork` with an array `blkx` of dictionaries with data `Data`: the tables are these data. -/
theorem C72_udif_tables (f64 : List Char → Option (BitVec 64)) (data : List Byte) (tables : List (List Byte)) :
    udifTables f64 data = .ok tables ↔ ∃ t root fork blkx, data = textBytes t ∧ Spec.Plist.IsPlist f64 t root ∧ root.get "resource-fork".toList = some fork ∧
      fork.vector "blkx".toList = some blkx ∧ blkx.map (fun o => o.bytes "Data".toList) = tables.map some := by
  unfold udifTables
  constructor
  · intro h
    obtain ⟨t, h1, h⟩ := R.bind_eq_ok.1 h
    obtain ⟨root, h2, h⟩ := R.bind_eq_ok.1 h
    obtain ⟨fork, h3, h⟩ := R.bind_eq_ok.1 h
    obtain ⟨blkx, h4, h⟩ := R.bind_eq_ok.1 h
    exact ⟨t, root, fork, blkx, (fromUtf8_iff _ _).1 (get?_eq_ok.1 h1), (C71_parse _ _ _).1 h2, get?_eq_ok.1 h3, get?_eq_ok.1 h4, (tablesOf_iff _ _).1 h⟩
  · rintro ⟨t, root, fork, blkx, h1, h2, h3, h4, h5⟩
    rw [(fromUtf8_iff _ _).2 h1]
    simp only [get?, R.ok_bind, (C71_parse _ _ _).2 h2, h3, h4, (tablesOf_iff _ _).2 h5]

/-- C72, in part: looking for the block tables never panics if no date element starts in the property list. -/
theorem C72_udif_no_panic_partial (f64 : List Char → Option (BitVec 64)) (data : List Byte) (h : ∀ t, data = textBytes t → ¬ "<date".toList <:+: t) : udifTables f64 data ≠ .panic := by
  unfold udifTables
  refine bind_ne_panic (get?_ne_panic _) fun t ht => bind_ne_panic (C71_no_panic_partial f64 t (h t ((fromUtf8_iff _ _).1 (get?_eq_ok.1 ht)))) fun _ _ =>
    bind_ne_panic (get?_ne_panic _) fun _ _ => bind_ne_panic (get?_ne_panic _) fun _ _ => tablesOf_ne_panic _

/-- C72, in part: a UDIF image with a property list is accepted exactly if its footer is right, the property list has at most 65536 bytes, and the
block tables that the text describes are right. The conditions on the sizes are those of `C41_open_partial`. -/
theorem C72_udif_open_partial (f64 : List Char → Option (BitVec 64)) (file : List Byte) (t : List Char) (root fork : Object) (blkx : List Object) (tables : List (List Byte))
    (ht : Spec.Udif.plistBytes file = textBytes t) (hp : Spec.Plist.IsPlist f64 t root) (hf : root.get "resource-fork".toList = some fork) (hb : fork.vector "blkx".toList = some blkx)
    (htab : blkx.map (fun o => o.bytes "Data".toList) = tables.map some) (hsize : Spec.Udif.plistSize file ≠ 0)
    (hfork : Spec.Udif.forkOffset file + Spec.Udif.forkSize file < 2 ^ 64) (hs : Spec.Udif.sectorsOf (Spec.Udif.usedOf (tables.map Spec.Udif.tableOf)) + 16384 ≤ 2 ^ 55)
    (hw : Spec.Udif.Windowed (tables.map Spec.Udif.tableOf)) :
    Udif.openImage (udifTables f64) file ≠ .panic ∧
      ((∃ image, Udif.openImage (udifTables f64) file = .ok image) ↔
        Spec.Udif.FooterOk file ∧ Spec.Udif.plistSize file ≤ 65536 ∧ (∀ d ∈ tables, Spec.Udif.TableOk d) ∧
          Spec.Udif.Describes (Spec.Udif.forkOffset file) (Spec.Udif.forkSize file) (tables.map Spec.Udif.tableOf)) :=
  C41_open_partial (udifTables f64) file tables ((C72_udif_tables f64 _ tables).2 ⟨t, root, fork, blkx, ht, hp, hf, hb, htab⟩) hsize hfork hs hw

/-- C72: a sparse bundle is opened exactly if its `Info.plist` has between 1 and 65536 bytes, they are the UTF-8 of a property list, and the
dictionary has the version, the type, a band size and a size in their bounds: the image has these sizes. -/
theorem C72_bundle (f64 : List Char → Option (BitVec 64)) (files : List (List Char) → Option (List Byte)) (image : SparseBundle.Image) :
    openBundle f64 files = .ok image ↔ ∃ data t root, files ["Info.plist".toList] = some data ∧ 0 < data.length ∧ data.length ≤ 65536 ∧ data = textBytes t ∧ Spec.Plist.IsPlist f64 t root ∧
      root.str "CFBundleInfoDictionaryVersion".toList = some "6.0".toList ∧ root.str "diskimage-bundle-type".toList = some "com.apple.diskimage.sparsebundle".toList ∧
      root.int "band-size".toList = some (image.blockSize : Int) ∧ 0 < image.blockSize ∧ image.blockSize < 2 ^ 32 ∧
      root.int "size".toList = some (image.mediaSize : Int) ∧ 0 < image.mediaSize := by
  have hstr : ∀ (x : Option (List Char)) (s : String), x.map String.ofList = some s ↔ x = some s.toList := by
    intro x s
    cases x with
    | none => constructor <;> nofun
    | some l =>
      simp only [Option.map_some, Option.some.injEq]
      constructor
      · rintro rfl; simp
      · rintro rfl; simp
  have hinfo : ∀ root, SparseBundle.openInfo (infoOf root) = .ok image ↔ root.str "CFBundleInfoDictionaryVersion".toList = some "6.0".toList ∧
      root.str "diskimage-bundle-type".toList = some "com.apple.diskimage.sparsebundle".toList ∧
      root.int "band-size".toList = some (image.blockSize : Int) ∧ 0 < image.blockSize ∧ image.blockSize < 2 ^ 32 ∧ root.int "size".toList = some (image.mediaSize : Int) ∧ 0 < image.mediaSize := by
    intro root
    have := (C55_open (infoOf root) image).2
    unfold infoOf at this ⊢
    simp only [hstr] at this
    exact this
  unfold openBundle
  constructor
  · intro h
    obtain ⟨data, h1, h⟩ := R.bind_eq_ok.1 h
    obtain ⟨_, h2, h⟩ := R.bind_eq_ok.1 h
    obtain ⟨t, h3, h⟩ := R.bind_eq_ok.1 h
    obtain ⟨root, h4, h⟩ := R.bind_eq_ok.1 h
    have h2 := R.require_eq_ok.1 h2
    exact ⟨data, t, root, get?_eq_ok.1 h1, by omega, by omega, (fromUtf8_iff _ _).1 (get?_eq_ok.1 h3), (C71_parse _ _ _).1 h4, (hinfo root).1 h⟩
  · rintro ⟨data, t, root, h1, h2, h3, h4, h5, h6⟩
    rw [h1]
    simp only [get?, R.ok_bind, R.require_true (show ¬ (data.length = 0 ∨ data.length > 65536) by omega), (fromUtf8_iff _ _).2 h4, (C71_parse _ _ _).2 h5]
    exact (hinfo root).2 h6

/-- C72, in part: opening a sparse bundle never panics if no date element starts in its property list. -/
theorem C72_bundle_no_panic_partial (f64 : List Char → Option (BitVec 64)) (files : List (List Char) → Option (List Byte))
    (h : ∀ t, files ["Info.plist".toList] = some (textBytes t) → ¬ "<date".toList <:+: t) : openBundle f64 files ≠ .panic := by
  unfold openBundle
  refine bind_ne_panic (get?_ne_panic _) fun data hd => bind_ne_panic ?_ fun _ _ => bind_ne_panic (get?_ne_panic _) fun t ht =>
    bind_ne_panic (C71_no_panic_partial f64 t (h t ?_)) fun root _ => (C55_open (infoOf root) ⟨0, 0⟩).1
  · unfold R.require; split <;> nofun
  · rw [get?_eq_ok.1 hd, (fromUtf8_iff _ _).1 (get?_eq_ok.1 ht)]
    rfl

/-- C72, in part: a sparse bundle that is opened is read, under every sequence of reads and seeks, as the media in its bands. The condition that every
byte is stored is that of `C55_contents_partial`. -/
theorem C72_bundle_contents_partial (f64 : List Char → Option (BitVec 64)) (files : List (List Char) → Option (List Byte)) (image : SparseBundle.Image) (h : openBundle f64 files = .ok image)
    (hs : Spec.SparseBundle.Stored files image.blockSize image.mediaSize) (ops : List StreamOp) (hf : image.mediaSize + Spec.seekBudget ops < 2 ^ 63) :
    ∃ tr, Stream.run (SparseBundle.stream files image) ⟨(), 0⟩ ops = .ok tr ∧ tr.map Prod.fst = ops ∧
      Spec.Trace true (Spec.SparseBundle.contents files image.blockSize image.mediaSize) image.mediaSize 0 tr := by
  obtain ⟨_, _, _, _, _, _, _, _, _, _, _, h1, _⟩ := (C72_bundle f64 files image).1 h
  exact C55_contents_partial files image h1 hs ops hf

/-- Bytes that are compressed data of other bytes, by the method with this number: ADC, zlib, bzip2 (one block) or LZFSE, as the specifications of the
formats have it and within what the decompressors take (C23, C28, C54, C66). -/
def CompressedBy (method : Nat) (data plain : List Byte) : Prop :=
  (method = 0x80000004 ∧ ∃ ts, Spec.Adc.Valid ts ∧ data = Spec.Adc.encode ts ∧ plain = Spec.Adc.denote ts) ∨
  (method = 0x80000005 ∧ ∃ bs extra, Spec.Zlib.Stream data bs (Spec.Zlib.checksum (Spec.Deflate.denote bs)) extra ∧ bs ≠ [] ∧ Spec.Deflate.Wf 0 bs ∧ Spec.Deflate.Ok bs ∧
    (∀ b ∈ bs, Deflate.HasDist b) ∧ plain = Spec.Deflate.denote bs) ∨
  (method = 0x80000006 ∧ ∃ block runs, Spec.Bzip2.IsStream data [block] (Spec.Bzip2.combine [Spec.Bzip2.crc (Spec.Bwt.expanded runs)]) ∧ block.Tables ∧ block.Trees 19 ∧ block.Encodes runs ∧
    (Spec.Bwt.stored runs).length ≤ 100000 ∧ plain = Spec.Bwt.expanded runs) ∨
  (method = 0x80000007 ∧ ∃ bs tail, Spec.Lzfse.Ok [] bs ∧ (∀ c, Spec.Lzfse.Block.coded c ∈ bs → 4 ≤ c.literalData.length + c.stepData.length) ∧ plain.length < 2 ^ 31 ∧
    data = Spec.Lzfse.encode [] bs ++ tail ∧ plain = Spec.Lzfse.run [] bs)

/-- Compressed data of a whole range decompresses to the data. -/
theorem C72_decompress_partial {method : Nat} {data plain : List Byte} (h : CompressedBy method data plain) : udifDecompress method data plain.length = .ok plain := by
  have hz : (List.replicate plain.length (0#8)).length = plain.length := List.length_replicate
  have hd : plain ++ (List.replicate plain.length (0#8)).drop plain.length = plain := by rw [List.drop_of_length_le (by omega), List.append_nil]
  unfold udifDecompress
  rcases h with ⟨rfl, ts, h1, rfl, h2⟩ | ⟨rfl, bs, extra, h1, h2, h3, h4, h5, h6⟩ | ⟨rfl, block, runs, h1, h2, h3, h4, h5, h6⟩ | ⟨rfl, bs, tail, h1, h2, h3, rfl, h4⟩
  · rw [if_pos rfl, C23_adc_decode ts h1 _ (by rw [hz, h2]), ← h2, hd]
    rfl
  · rw [if_neg (by decide), if_pos rfl, C28_right_checksum h1 h2 h3 h4 h5 _ (by rw [hz, h6]) (.inl (by rw [hz, h6])), ← h6, hd]
    rfl
  · rw [if_neg (by decide), if_neg (by decide), if_pos rfl, C54_one_block_partial data block runs h1 h2 h3 h4 h5 _ (by rw [hz, h6]), ← h6, hd]
    rfl
  · rw [if_neg (by decide), if_neg (by decide), if_neg (by decide), if_pos rfl, C66_lzfse_decode_partial bs tail _ h1 h2 (by rw [hz, h4]) (by rw [hz]; omega), ← h4, hd]; rfl

/-- C72, in part: an accepted UDIF image whose property list is the text is read, under every sequence of reads and seeks, as the media of the block
tables in the text: zeros, bytes of the file, and the bytes that the compressed data stands for. Missing: what the decompressors do not take, compressed
entries at the same place with several sizes (`C41_violated_cache`), and LZMA, which is refused. -/
theorem C72_udif_contents_partial (f64 : List Char → Option (BitVec 64)) (file : List Byte) (hlen : file.length < 2 ^ 63) (t : List Char) (root fork : Object) (blkx : List Object)
    (tables : List (List Byte)) (ht : Spec.Udif.plistBytes file = textBytes t) (hp : Spec.Plist.IsPlist f64 t root) (hf : root.get "resource-fork".toList = some fork)
    (hb : fork.vector "blkx".toList = some blkx) (htab : blkx.map (fun o => o.bytes "Data".toList) = tables.map some) (hsize : Spec.Udif.plistSize file ≠ 0)
    (image : Udif.Image) (hopen : Udif.openImage (udifTables f64) file = .ok image) (plain : Spec.Udif.Entry → List Byte)
    (hstored : ∀ e ∈ Spec.Udif.usedOf (tables.map Spec.Udif.tableOf), e.kind = 1 → e.dataOffset + e.sectors * 512 ≤ file.length)
    (hplain : ∀ e ∈ Spec.Udif.usedOf (tables.map Spec.Udif.tableOf), e.compressed → e.dataSize < 2 ^ 32 ∧ e.dataOffset + e.dataSize ≤ file.length ∧
      CompressedBy e.kind (Spec.bytesAt file e.dataOffset e.dataSize) (plain e) ∧ (plain e).length = e.sectors * 512)
    (hcon : Spec.Udif.Consistent (tables.map Spec.Udif.tableOf)) (ops : List StreamOp)
    (hsz : Spec.Udif.sectorsOf (Spec.Udif.usedOf (tables.map Spec.Udif.tableOf)) * 512 + Spec.seekBudget ops < 2 ^ 63) :
    ∃ tr, Stream.run (Udif.stream udifDecompress file image) ⟨Udif.newCache, 0⟩ ops = .ok tr ∧ tr.map Prod.fst = ops ∧
      Spec.Trace true ((Spec.Udif.usedOf (tables.map Spec.Udif.tableOf)).flatMap fun e =>
          if e.kind = 1 then (List.range (e.sectors * 512)).map fun i => file.getD (e.dataOffset + i) 0#8
          else if e.compressed then plain e else List.replicate (e.sectors * 512) 0#8)
        (Spec.Udif.sectorsOf (Spec.Udif.usedOf (tables.map Spec.Udif.tableOf)) * 512) 0 tr := by
  have hdec : ∀ e ∈ Spec.Udif.usedOf (tables.map Spec.Udif.tableOf), e.compressed → udifDecompress e.kind (Spec.bytesAt file e.dataOffset e.dataSize) (e.sectors * 512) = .ok (plain e) := by
    intro e he hc
    obtain ⟨-, -, h, hl⟩ := hplain e he hc
    rw [← hl]
    exact C72_decompress_partial h
  obtain ⟨tr, h1, h2, h3⟩ := C41_contents_partial (udifTables f64) udifDecompress file hlen tables ((C72_udif_tables f64 _ tables).2 ⟨t, root, fork, blkx, ht, hp, hf, hb, htab⟩) hsize image hopen
    (fun e he => ⟨hstored e he, fun hc => ⟨(hplain e he hc).1, (hplain e he hc).2.1, plain e, hdec e he hc, (hplain e he hc).2.2.2⟩⟩) hcon ops hsz
  refine ⟨tr, h1, h2, ?_⟩
  have e : Spec.Udif.contents udifDecompress file (tables.map Spec.Udif.tableOf) = (Spec.Udif.usedOf (tables.map Spec.Udif.tableOf)).flatMap fun e =>
      if e.kind = 1 then (List.range (e.sectors * 512)).map fun i => file.getD (e.dataOffset + i) 0#8
      else if e.compressed then plain e else List.replicate (e.sectors * 512) 0#8 := by
    unfold Spec.Udif.contents
    refine List.flatMap_congr fun e he => ?_
    unfold Spec.Udif.bytesOf
    by_cases hk : e.kind = 1
    · rw [if_pos hk, if_pos hk]
    · rw [if_neg hk, if_neg hk]
      by_cases hc : e.compressed
      · rw [if_pos hc, if_pos hc, hdec e he hc]
      · rw [if_neg hc, if_neg hc]
  rw [e] at h3
  exact h3

/-! Concrete cases. -/

/-- The property list of a sparse bundle of 10 MiB in bands of 8 MiB. -/
def bundleText : List Char :=
  ['<', '?', 'x', 'm', 'l', ' ', 'v', 'e', 'r', 's', 'i', 'o', 'n', '=', '"', '1', '.', '0', '"', ' ', 'e', 'n', 'c', 'o', 'd', 'i', 'n', 'g', '=', '"', 'U',
  'T', 'F', '-', '8', '"', '?', '>', '\n', '<', 'p', 'l', 'i', 's', 't', ' ', 'v', 'e', 'r', 's', 'i', 'o', 'n', '=', '"', '1', '.', '0', '"', '>', '\n',
  '<', 'd', 'i', 'c', 't', '>', '\n', '<', 'k', 'e', 'y', '>', 'C', 'F', 'B', 'u', 'n', 'd', 'l', 'e', 'I', 'n', 'f', 'o', 'D', 'i', 'c', 't', 'i', 'o', 'n',
  'a', 'r', 'y', 'V', 'e', 'r', 's', 'i', 'o', 'n', '<', '/', 'k', 'e', 'y', '>', '\n', '<', 's', 't', 'r', 'i', 'n', 'g', '>', '6', '.', '0', '<', '/', 's',
  't', 'r', 'i', 'n', 'g', '>', '\n', '<', 'k', 'e', 'y', '>', 'b', 'a', 'n', 'd', '-', 's', 'i', 'z', 'e', '<', '/', 'k', 'e', 'y', '>', '\n', '<', 'i',
  'n', 't', 'e', 'g', 'e', 'r', '>', '8', '3', '8', '8', '6', '0', '8', '<', '/', 'i', 'n', 't', 'e', 'g', 'e', 'r', '>', '\n', '<', 'k', 'e', 'y', '>', 'd',
  'i', 's', 'k', 'i', 'm', 'a', 'g', 'e', '-', 'b', 'u', 'n', 'd', 'l', 'e', '-', 't', 'y', 'p', 'e', '<', '/', 'k', 'e', 'y', '>', '\n', '<', 's', 't', 'r',
  'i', 'n', 'g', '>', 'c', 'o', 'm', '.', 'a', 'p', 'p', 'l', 'e', '.', 'd', 'i', 's', 'k', 'i', 'm', 'a', 'g', 'e', '.', 's', 'p', 'a', 'r', 's', 'e', 'b',
  'u', 'n', 'd', 'l', 'e', '<', '/', 's', 't', 'r', 'i', 'n', 'g', '>', '\n', '<', 'k', 'e', 'y', '>', 's', 'i', 'z', 'e', '<', '/', 'k', 'e', 'y', '>',
  '\n', '<', 'i', 'n', 't', 'e', 'g', 'e', 'r', '>', '1', '0', '4', '8', '5', '7', '6', '0', '<', '/', 'i', 'n', 't', 'e', 'g', 'e', 'r', '>', '\n', '<',
  '/', 'd', 'i', 'c', 't', '>', '\n', '<', '/', 'p', 'l', 'i', 's', 't', '>', '\n']

/-- The files of the bundle. -/
def bundleFiles (path : List (List Char)) : Option (List Byte) := if path = ["Info.plist".toList] then some (textBytes bundleText) else none

theorem bundleSample : openBundle (fun _ => none) bundleFiles = .ok ⟨8388608, 10485760⟩ := by
  obtain ⟨o, h1, h2⟩ := run_ok (x := parse (fun _ => none) bundleText) (p := fun o => decide (o.str "CFBundleInfoDictionaryVersion".toList = some "6.0".toList) &&
    (decide (o.str "diskimage-bundle-type".toList = some "com.apple.diskimage.sparsebundle".toList) && (decide (o.int "band-size".toList = some 8388608) && decide (o.int "size".toList = some 10485760))))
    (by decide +kernel)
  simp only [Bool.and_eq_true, decide_eq_true_eq] at h2
  exact (C72_bundle _ _ _).2 ⟨textBytes bundleText, bundleText, o, if_pos rfl, by decide +kernel, by decide +kernel, rfl, (C71_parse _ _ _).1 h1, h2.1, h2.2.1, h2.2.2.1, by decide, by decide, h2.2.2.2, by decide⟩

example : ¬ "<date".toList <:+: bundleText := by decide +kernel

/-- The property list of a UDIF image with two block tables. -/
def udifText : List Char :=
  ['<', 'p', 'l', 'i', 's', 't', ' ', 'v', 'e', 'r', 's', 'i', 'o', 'n', '=', '"', '1', '.', '0', '"', '>', '<', 'd', 'i', 'c', 't', '>', '<', 'k', 'e', 'y',
  '>', 'r', 'e', 's', 'o', 'u', 'r', 'c', 'e', '-', 'f', 'o', 'r', 'k', '<', '/', 'k', 'e', 'y', '>', '<', 'd', 'i', 'c', 't', '>', '<', 'k', 'e', 'y', '>',
  'b', 'l', 'k', 'x', '<', '/', 'k', 'e', 'y', '>', '<', 'a', 'r', 'r', 'a', 'y', '>', '<', 'd', 'i', 'c', 't', '>', '<', 'k', 'e', 'y', '>', 'D', 'a', 't',
  'a', '<', '/', 'k', 'e', 'y', '>', '<', 'd', 'a', 't', 'a', '>', 'b', 'W', 'l', 'z', 'a', 'A', '=', '=', '<', '/', 'd', 'a', 't', 'a', '>', '<', '/', 'd',
  'i', 'c', 't', '>', '<', 'd', 'i', 'c', 't', '>', '<', 'k', 'e', 'y', '>', 'D', 'a', 't', 'a', '<', '/', 'k', 'e', 'y', '>', '<', 'd', 'a', 't', 'a', '>',
  'A', 'A', 'E', 'C', 'A', 'w', '=', '=', '<', '/', 'd', 'a', 't', 'a', '>', '<', '/', 'd', 'i', 'c', 't', '>', '<', '/', 'a', 'r', 'r', 'a', 'y', '>', '<',
  '/', 'd', 'i', 'c', 't', '>', '<', '/', 'd', 'i', 'c', 't', '>', '<', '/', 'p', 'l', 'i', 's', 't', '>']

example : udifTables (fun _ => none) (textBytes udifText) = .ok [[0x6d, 0x69, 0x73, 0x68], [0, 1, 2, 3]] := by
  obtain ⟨o, h1, h2⟩ := run_ok (x := parse (fun _ => none) udifText) (p := fun o =>
    match o.get "resource-fork".toList with
    | some fork =>
      match fork.vector "blkx".toList with
      | some l => decide (l.map (fun o => o.bytes "Data".toList) = [some [0x6d, 0x69, 0x73, 0x68], some [0, 1, 2, 3]])
      | none => false
    | none => false) (by decide +kernel)
  cases hf : o.get "resource-fork".toList with
  | none => rw [hf] at h2; cases h2
  | some fork =>
    rw [hf] at h2
    simp only at h2
    cases hv : fork.vector "blkx".toList with
    | none => rw [hv] at h2; cases h2
    | some l =>
      rw [hv] at h2
      exact (C72_udif_tables _ _ _).2 ⟨udifText, o, fork, l, rfl, (C71_parse _ _ _).1 h1, hf, hv, of_decide_eq_true h2⟩

/-- Bytes that are not UTF-8 are refused. -/
example (f64 : List Char → Option (BitVec 64)) : udifTables f64 [0xff] = .err := rfl

/-- The property list of a UDIF image with a block table of two entries: a sector compressed with ADC and a sector of zeros. -/
def udifText2 : List Char :=
  ['<', 'p', 'l', 'i', 's', 't', ' ', 'v', 'e', 'r', 's', 'i', 'o', 'n', '=', '"', '1', '.', '0', '"', '>', '<', 'd', 'i', 'c', 't', '>', '<', 'k', 'e', 'y',
  '>', 'r', 'e', 's', 'o', 'u', 'r', 'c', 'e', '-', 'f', 'o', 'r', 'k', '<', '/', 'k', 'e', 'y', '>', '<', 'd', 'i', 'c', 't', '>', '<', 'k', 'e', 'y', '>',
  'b', 'l', 'k', 'x', '<', '/', 'k', 'e', 'y', '>', '<', 'a', 'r', 'r', 'a', 'y', '>', '<', 'd', 'i', 'c', 't', '>', '<', 'k', 'e', 'y', '>', 'D', 'a', 't',
  'a', '<', '/', 'k', 'e', 'y', '>', '<', 'd', 'a', 't', 'a', '>', 'b', 'W', 'l', 'z', 'a', 'A', 'A', 'A', 'A', 'A', 'E', 'A', 'A', 'A', 'A', 'A', 'A', 'A',
  'A', 'A', 'A', 'A', 'A', 'A', 'A', 'A', 'A', 'A', 'A', 'A', 'A', 'A', 'A', 'A', 'A', 'A', 'A', 'A', 'A', 'A', 'A', 'A', 'A', 'A', 'A', 'A', 'A', 'A', 'A',
  'A', 'A', 'A', 'A', 'A', 'A', 'A', 'A', 'A', 'A', 'A', 'A', 'A', 'A', 'A', 'A', 'A', 'A', 'A', 'A', 'A', 'A', 'A', 'A', 'A', 'A', 'A', 'A', 'A', 'A', 'A',
  'A', 'A', 'A', 'A', 'A', 'A', 'A', 'A', 'A', 'A', 'A', 'A', 'A', 'A', 'A', 'A', 'A', 'A', 'A', 'A', 'A', 'A', 'A', 'A', 'A', 'A', 'A', 'A', 'A', 'A', 'A',
  'A', 'A', 'A', 'A', 'A', 'A', 'A', 'A', 'A', 'A', 'A', 'A', 'A', 'A', 'A', 'A', 'A', 'A', 'A', 'A', 'A', 'A', 'A', 'A', 'A', 'A', 'A', 'A', 'A', 'A', 'A',
  'A', 'A', 'A', 'A', 'A', 'A', 'A', 'A', 'A', 'A', 'A', 'A', 'A', 'A', 'A', 'A', 'A', 'A', 'A', 'A', 'A', 'A', 'A', 'A', 'A', 'A', 'A', 'A', 'A', 'A', 'A',
  'A', 'A', 'A', 'A', 'A', 'A', 'A', 'A', 'A', 'A', 'A', 'A', 'A', 'A', 'A', 'A', 'A', 'A', 'A', 'A', 'A', 'A', 'A', 'A', 'A', 'A', 'A', 'A', 'A', 'A', 'A',
  'A', 'A', 'A', 'A', 'A', 'A', 'A', 'A', 'A', 'A', 'A', 'A', 'A', 'A', 'A', 'A', 'A', 'A', 'A', 'A', 'A', 'A', 'A', 'A', 'A', 'A', 'A', 'A', 'A', 'A', 'A',
  'A', 'A', 'A', 'A', 'A', 'A', 'A', 'A', 'A', 'A', 'A', 'A', 'A', 'A', 'A', 'A', 'A', 'A', 'A', 'A', 'A', 'A', 'A', 'A', 'A', 'A', 'A', 'A', 'A', 'A', 'A',
  'A', 'A', 'A', 'A', 'A', 'C', 'g', 'A', 'A', 'A', 'B', 'A', 'A', 'A', 'A', 'A', 'A', 'A', 'A', 'A', 'A', 'A', 'A', 'A', 'A', 'A', 'A', 'A', 'A', 'A', 'A',
  'A', 'A', 'A', 'A', 'A', 'A', 'B', 'A', 'A', 'A', 'A', 'A', 'A', 'A', 'A', 'A', 'A', 'A', 'A', 'A', 'A', 'A', 'A', 'A', 'A', 'A', 'A', 'G', 'g', 'A', 'A',
  'A', 'A', 'I', 'A', 'A', 'A', 'A', 'A', 'A', 'A', 'A', 'A', 'A', 'A', 'A', 'A', 'A', 'A', 'E', 'A', 'A', 'A', 'A', 'A', 'A', 'A', 'A', 'A', 'A', 'Q', 'A',
  'A', 'A', 'A', 'A', 'A', 'A', 'A', 'A', 'A', 'A', 'A', 'A', 'A', 'A', 'A', 'A', 'A', 'A', 'A', 'A', '=', '<', '/', 'd', 'a', 't', 'a', '>', '<', '/', 'd',
  'i', 'c', 't', '>', '<', '/', 'a', 'r', 'r', 'a', 'y', '>', '<', '/', 'd', 'i', 'c', 't', '>', '<', '/', 'd', 'i', 'c', 't', '>', '<', '/', 'p', 'l', 'i',
  's', 't', '>']

/-- A number of `n` bytes, big-endian. -/
private def be (n x : Nat) : List Byte := ((List.range n).map fun i => BitVec.ofNat 8 (x / 256 ^ i)).reverse

/-- A sector of fives, as ADC has it. -/
def adcTokens : List Spec.Adc.Token := [.literal [5#8], .long 1 67, .long 1 67, .long 1 67, .long 1 67, .long 1 67, .long 1 67, .long 1 67, .long 1 42]

/-- The image: the data fork, the property list and the footer. -/
def udifFile : List Byte :=
  Spec.Adc.encode adcTokens ++ textBytes udifText2 ++ ([0x6b#8, 0x6f#8, 0x6c#8, 0x79#8] ++ be 4 4 ++ List.replicate 16 0#8 ++ be 8 0 ++ be 8 26 ++
    List.replicate 176 0#8 ++ be 8 26 ++ be 8 530 ++ List.replicate 280 0#8)

/-- The block table. -/
def udifTable : List Byte :=
  [0x6d#8, 0x69#8, 0x73#8, 0x68#8] ++ be 4 1 ++ be 8 0 ++ List.replicate 184 0#8 ++ be 4 2 ++
    (be 4 0x80000004 ++ be 4 0 ++ be 8 0 ++ be 8 1 ++ be 8 0 ++ be 8 26) ++ (be 4 2 ++ be 4 0 ++ be 8 1 ++ be 8 1 ++ be 8 0 ++ be 8 0)

private theorem udifUsed : Spec.Udif.usedOf ([udifTable].map Spec.Udif.tableOf) = [⟨0x80000004, 0, 1, 0, 26⟩, ⟨2, 1, 1, 0, 0⟩] := by decide +kernel

private theorem udifParse : ∃ o fork l, Spec.Plist.IsPlist (fun _ => none) udifText2 o ∧ o.get "resource-fork".toList = some fork ∧ fork.vector "blkx".toList = some l ∧
    l.map (fun o => o.bytes "Data".toList) = [udifTable].map some := by
  obtain ⟨o, h1, h2⟩ := run_ok (x := parse (fun _ => none) udifText2) (p := fun o =>
    match o.get "resource-fork".toList with
    | some fork =>
      match fork.vector "blkx".toList with
      | some l => decide (l.map (fun o => o.bytes "Data".toList) = [udifTable].map some)
      | none => false
    | none => false) (by decide +kernel)
  cases hf : o.get "resource-fork".toList with
  | none => rw [hf] at h2; cases h2
  | some fork =>
    rw [hf] at h2
    simp only at h2
    cases hv : fork.vector "blkx".toList with
    | none => rw [hv] at h2; cases h2
    | some l =>
      rw [hv] at h2
      exact ⟨o, fork, l, (C71_parse _ _ _).1 h1, hf, hv, of_decide_eq_true h2⟩

private theorem udif_ht : Spec.Udif.plistBytes udifFile = textBytes udifText2 := by decide +kernel

private theorem udif_h3 : Spec.Udif.forkOffset udifFile = 0 := by decide +kernel

private theorem udif_h4 : Spec.Udif.forkSize udifFile = 26 := by decide +kernel

private theorem udif_h5 : udifFile.length = 1068 := by decide +kernel

private theorem udif_h6 : Spec.Udif.plistSize udifFile = 530 := by decide +kernel

private theorem udif_hd : (Spec.Adc.denote adcTokens) = List.replicate 512 5#8 := by decide +kernel

private theorem udif_hb : Spec.bytesAt udifFile 0 26 = Spec.Adc.encode adcTokens := by decide +kernel

/-- The hypotheses are met, and the image is opened and read: a five at 511, a zero at 512. -/
example : ∃ image tr, Udif.openImage (udifTables fun _ => none) udifFile = .ok image ∧
    Stream.run (Udif.stream udifDecompress udifFile image) ⟨Udif.newCache, 0⟩ [.seek (.start 511), .read 4] = .ok tr ∧
    Spec.Trace true (List.replicate 512 5#8 ++ List.replicate 512 0#8) 1024 0 tr := by
  obtain ⟨o, fork, l, hp, hf, hv, h2⟩ := udifParse
  have hs : Spec.Udif.sectorsOf (Spec.Udif.usedOf ([udifTable].map Spec.Udif.tableOf)) = 2 := by rw [udifUsed]; decide
  obtain ⟨image, himage⟩ := (C72_udif_open_partial _ udifFile udifText2 o fork l [udifTable] udif_ht hp hf hv h2 (by rw [udif_h6]; decide) (by rw [udif_h3, udif_h4]; decide) (by rw [hs]; decide) (.inl (by rw [hs]; decide))).2.2
    ⟨⟨by rw [udif_h5]; decide, by decide +kernel, by decide +kernel⟩, by rw [udif_h6]; decide, by
      intro d hd
      rw [List.mem_singleton.1 hd]
      exact ⟨by decide +kernel, by decide +kernel, by decide +kernel⟩, by
      refine ⟨?_, ?_, ?_⟩
      · refine ⟨by decide +kernel, ?_, trivial⟩
        rw [show (Spec.Udif.tableOf udifTable).used = [⟨0x80000004, 0, 1, 0, 26⟩, ⟨2, 1, 1, 0, 0⟩] by decide +kernel]
        exact ⟨rfl, rfl, trivial⟩
      · rw [udifUsed, udif_h3, udif_h4]
        unfold Spec.Udif.EntryOk
        decide
      · rw [udifUsed]
        decide⟩
  obtain ⟨tr, k1, -, k3⟩ := C72_udif_contents_partial _ udifFile (by rw [udif_h5]; decide) udifText2 o fork l [udifTable] udif_ht hp hf hv h2 (by rw [udif_h6]; decide) image himage
    (fun _ => List.replicate 512 5#8) (by rw [udifUsed, udif_h5]; decide) (by
      rw [udifUsed, udif_h5]
      intro e he hc
      simp only [List.mem_cons, List.not_mem_nil, or_false] at he
      rcases he with rfl | rfl
      · refine ⟨by decide, by decide, .inl ⟨rfl, adcTokens, ⟨?_, ?_⟩, udif_hb, udif_hd.symm⟩, List.length_replicate⟩
        · simp [adcTokens, Spec.Adc.Token.wf]
        · simp [adcTokens, Spec.Lz.Ok, Spec.Lz.Op.ok, Spec.Adc.Token.op, Spec.Lz.Op.run]
      · exact absurd hc (by decide)) (by unfold Spec.Udif.Consistent; rw [udifUsed]; decide) [.seek (.start 511), .read 4] (by rw [hs]; decide)
  rw [hs, udifUsed, List.flatMap_cons, List.flatMap_cons, List.flatMap_nil, List.append_nil, if_neg (by decide), if_pos (by decide), if_neg (by decide), if_neg (by decide),
    show 1 * 512 = 512 from rfl, show 2 * 512 = 1024 from rfl] at k3
  exact ⟨image, tr, himage, k1, k3⟩

end Keramics.Props
