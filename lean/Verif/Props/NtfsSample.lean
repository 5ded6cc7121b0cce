import Verif.Spec.NtfsCompression

/-!
# A sample NTFS volume

The volume on which the hypotheses of C61 to C64 and C74 are shown to hold: 21 clusters of 512 bytes. Cluster 0 is the boot
sector, clusters 1 to 13 are the entries of the MFT, 14 has an index record of the root directory, 15 and 16 the contents of files, 17 compressed
data, 18 and 20 data of the Windows Overlay Filter, 19 the table of upper case characters.
-/

namespace Keramics.Props.NtfsSample
open Keramics.Spec Keramics.Spec.Ntfs Keramics.Spec.NtfsFs

/-! ## Checks -/

/-- The runs with fields of one byte. -/
def enc : Nat → List Run → List Byte
  | _, [] => []
  | last, .data count lcn :: runs => [0x11#8] ++ leBytes 1 count ++ leBytes 1 (((lcn : Int) - last) % 256).toNat ++ enc lcn runs
  | last, .sparse count :: runs => [1#8] ++ leBytes 1 count ++ enc last runs

def small : Nat → List Run → Bool
  | _, [] => true
  | last, .data count lcn :: runs => count < 256 ∧ -128 ≤ (lcn : Int) - last ∧ (lcn : Int) - last < 128 ∧ small lcn runs
  | last, .sparse count :: runs => count < 256 ∧ small last runs

theorem enc_ok : ∀ (last : Nat) (runs : List Run), small last runs = true → Encodes last runs (enc last runs)
  | _, [], _ => .nil
  | last, .data count lcn :: runs, h => by
    simp only [small, decide_eq_true_eq] at h
    exact .data 1 1 (by decide) (by decide) (by omega) (by decide) (by decide) (by omega) (by omega) (enc_ok lcn runs h.2.2.2)
  | last, .sparse count :: runs, h => by
    simp only [small, decide_eq_true_eq] at h
    exact .sparse 1 (by decide) (by decide) (by omega) (enc_ok last runs h.2)

def nameB (record : List Byte) (o start last : Nat) : Option (List Nat) → Bool
  | none => field record (o + 9) 1 = 0
  | some name => name ≠ [] ∧ 0 ∉ name ∧ field record (o + 9) 1 = name.length ∧ start ≤ field record (o + 10) 2 ∧
      field record (o + 10) 2 + 2 * name.length ≤ last ∧ unitsLe (bytesAt record (o + field record (o + 10) 2) (2 * name.length)) = name

theorem nameB_ok {record : List Byte} {o start last : Nat} {name : Option (List Nat)} (h : nameB record o start last name = true) :
    NameAt record o start last name := by
  cases name <;> simpa [nameB, NameAt] using h

def runsB (record : List Byte) (o length : Nat) (runs : List Run) : Bool :=
  let bytes := bytesAt record (o + field record (o + 32) 2) (length - field record (o + 32) 2)
  bytes = enc 0 runs ++ 0#8 :: bytes.drop ((enc 0 runs).length + 1)

def placeB : Run → Bool
  | .data _ lcn => lcn < 2 ^ 63
  | .sparse _ => true

def valueB (record : List Byte) (o length : Nat) (name : Option (List Nat)) : Value → Bool
  | .resident data => field record (o + 8) 1 = 0 ∧ 24 ≤ length ∧ field record (o + 16) 4 = data.length ∧
      nameB record o 24 (if data = [] then length else field record (o + 20) 2) name = true ∧
      (data ≠ [] → 24 ≤ field record (o + 20) 2 ∧ field record (o + 20) 2 + data.length ≤ length ∧
        bytesAt record (o + field record (o + 20) 2) data.length = data)
  | .clusters first last allocated size valid unit runs => field record (o + 8) 1 = 1 ∧ 64 ≤ length ∧ field record (o + 16) 8 = first ∧
      field record (o + 24) 8 = last ∧ field record (o + 34) 2 = unit ∧ field record (o + 40) 8 = allocated ∧ field record (o + 48) 8 = size ∧
      field record (o + 56) 8 = valid ∧ unit ≤ 31 ∧ nameB record o (if unit = 0 then 64 else 72) (field record (o + 32) 2) name = true ∧
      (if unit = 0 then 64 else 72) ≤ field record (o + 32) 2 ∧ field record (o + 32) 2 < length ∧
      runs.all placeB = true ∧ small 0 runs = true ∧ runsB record o length runs = true

theorem valueB_ok {record : List Byte} {o length : Nat} {name : Option (List Nat)} {v : Value} (h : valueB record o length name v = true) :
    ValueAt record o length name v := by
  cases v with
  | resident data =>
    simp only [valueB, decide_eq_true_eq] at h
    exact ⟨h.1, h.2.1, h.2.2.1, nameB_ok h.2.2.2.1, h.2.2.2.2⟩
  | clusters first last allocated size valid unit runs =>
    simp only [valueB, decide_eq_true_eq] at h
    obtain ⟨h1, h2, h3, h4, h5, h6, h7, h8, h9, h10, h11, h12, h13, h14, h15⟩ := h
    refine ⟨h1, h2, h3, h4, h5, h6, h7, h8, h9, nameB_ok h10, h11, h12, ?_, enc 0 runs,
      (bytesAt record (o + field record (o + 32) 2) (length - field record (o + 32) 2)).drop ((enc 0 runs).length + 1), enc_ok 0 runs h14, ?_⟩
    · intro count lcn hm
      have := List.all_eq_true.1 h13 _ hm
      simpa [placeB] using this
    · simp only [runsB, decide_eq_true_eq] at h15
      exact h15

def attributeB (record : List Byte) (o length : Nat) (a : Attribute) : Bool :=
  o + length ≤ record.length ∧ field record o 4 = a.kind ∧ a.kind ≠ 0xffffffff ∧ field record (o + 4) 4 = length ∧ field record (o + 12) 2 = a.flags ∧
    a.flags % 256 ≤ 1 ∧ valueB record o length a.name a.value = true

def attributesB (record : List Byte) : Nat → List Attribute → Bool
  | o, [] => o + 4 ≤ record.length ∧ bytesAt record o 4 = [0xff#8, 0xff#8, 0xff#8, 0xff#8]
  | o, a :: as => attributeB record o (field record (o + 4) 4) a && attributesB record (o + field record (o + 4) 4) as

theorem attributesB_ok {record : List Byte} : ∀ (o : Nat) (as : List Attribute), attributesB record o as = true → AttributesAt record o as
  | o, [], h => by
    simp only [attributesB, decide_eq_true_eq] at h
    exact .last h.1 h.2
  | o, a :: as, h => by
    simp only [attributesB, attributeB, Bool.and_eq_true, decide_eq_true_eq] at h
    obtain ⟨⟨h1, h2, h3, h4, h5, h6, h7⟩, h8⟩ := h
    exact .next ⟨h1, h2, h3, rfl, h5, h6, valueB_ok h7⟩ (attributesB_ok _ as h8)

def inClusters : Value → Bool
  | .resident _ => false
  | .clusters .. => true

theorem inClusters_ok {v : Value} (h : inClusters v = true) : ∃ f l x s v' u r, v = .clusters f l x s v' u r := by
  cases v with
  | resident data => cases h
  | clusters f l x s v' u r => exact ⟨f, l, x, s, v', u, r, rfl⟩

def linkB (data : List Byte) (offset size : Nat) : Bool :=
  size % 2 = 0 ∧ 20 + offset < data.length ∧ 20 + offset + size ≤ data.length ∧ 0 ∉ unitsLe (bytesAt data (20 + offset) size)

def onceB (a : Attribute) : Bool := match a.value with
  | .resident data => (a.kind = 0x10 → 48 ≤ data.length) ∧ (a.kind = 0xc0 → (field data 0 4 = 0x80000017 ∧ data.length = 24) ∨
      (field data 0 4 = 0xa000000c ∧ 20 ≤ data.length ∧
        linkB data (field data 8 2) (field data 10 2) = true ∧ linkB data (field data 12 2) (field data 14 2) = true))
  | .clusters .. => a.kind ≠ 0x10 ∧ a.kind ≠ 0xc0

def soundB (as : List Attribute) : Bool :=
  decide (as.Pairwise fun a b => a.name = b.name → a.kind = b.kind → a.kind ≠ 0x30 → inClusters a.value = true ∧ inClusters b.value = true) &&
  decide (as.Pairwise fun a b => a.kind = b.kind → a.kind ≠ 0x10 ∧ a.kind ≠ 0x20 ∧ a.kind ≠ 0xc0) && as.all onceB

theorem soundB_ok {as : List Attribute} (h : soundB as = true) : Sound as := by
  simp only [soundB, Bool.and_eq_true, decide_eq_true_eq] at h
  obtain ⟨⟨h1, h2⟩, h3⟩ := h
  refine ⟨h1.imp fun h a b c => ⟨inClusters_ok (h a b c).1, inClusters_ok (h a b c).2⟩, h2, ?_, ?_⟩
  · intro a ha hk
    have := List.all_eq_true.1 h3 a ha
    cases hv : a.value with
    | resident data =>
      simp only [onceB, hv, decide_eq_true_eq] at this
      exact ⟨data, rfl, this.1 hk⟩
    | clusters =>
      simp only [onceB, hv, decide_eq_true_eq] at this
      exact absurd hk this.1
  · intro a ha hk
    have := List.all_eq_true.1 h3 a ha
    cases hv : a.value with
    | resident data =>
      simp only [onceB, hv, decide_eq_true_eq] at this
      rcases this.2 hk with ⟨ht, hl⟩ | ⟨ht, hl, h4, h5⟩
      · exact ⟨data, _, rfl, .overlay ht hl⟩
      simp only [linkB, decide_eq_true_eq] at h4 h5
      exact ⟨data, _, rfl, .link ht hl ⟨h4.1, h4.2.1, h4.2.2.1, rfl, h4.2.2.2⟩ ⟨h5.1, h5.2.1, h5.2.2.1, rfl, h5.2.2.2⟩⟩
    | clusters =>
      simp only [onceB, hv, decide_eq_true_eq] at this
      exact absurd hk this.2

/-! ## The bytes -/

def zeros (n : Nat) : List Byte := List.replicate n 0#8

def pad (n : Nat) (l : List Byte) : List Byte := l ++ zeros (n - l.length)

def units (name : List Nat) : List Byte := name.flatMap (leBytes 2)

def round (n : Nat) : Nat := (n + 7) / 8 * 8

def nameOf (a : Attribute) : List Nat := a.name.getD []

/-- An attribute as it is stored. -/
def stored (a : Attribute) : List Byte := match a.value with
  | .resident data =>
    let start := 24 + 2 * (nameOf a).length
    let length := round (start + data.length)
    pad length (leBytes 4 a.kind ++ (leBytes 4 length ++ ([0#8] ++ (leBytes 1 (nameOf a).length ++ (leBytes 2 24 ++ (leBytes 2 a.flags ++ (leBytes 2 0 ++
      (leBytes 4 data.length ++ (leBytes 2 start ++ (leBytes 2 0 ++ (units (nameOf a) ++ data)))))))))))
  | .clusters first last allocated size valid unit runs =>
    let names := if unit = 0 then 64 else 72
    let start := names + 2 * (nameOf a).length
    let length := round (start + (enc 0 runs).length + 1)
    pad length (leBytes 4 a.kind ++ (leBytes 4 length ++ ([1#8] ++ (leBytes 1 (nameOf a).length ++ (leBytes 2 names ++ (leBytes 2 a.flags ++ (leBytes 2 0 ++
      (leBytes 8 first ++ (leBytes 8 last ++ (leBytes 2 start ++ (leBytes 2 unit ++ (leBytes 4 0 ++ (leBytes 8 allocated ++ (leBytes 8 size ++
        (leBytes 8 valid ++ (zeros (names - 64) ++ (units (nameOf a) ++ enc 0 runs)))))))))))))))))

/-- A record of the MFT. -/
def entry (number sequence base : Nat) (as : List Attribute) (inUse : Nat := 1) : List Byte :=
  pad 512 ([0x46#8, 0x49#8, 0x4c#8, 0x45#8] ++ (leBytes 2 48 ++ (leBytes 2 2 ++ (leBytes 8 (1000 + number) ++ (leBytes 2 sequence ++ (leBytes 2 1 ++ (leBytes 2 56 ++
    (leBytes 2 inUse ++ (leBytes 4 0 ++ (leBytes 4 512 ++ (leBytes 8 base ++ (leBytes 2 0 ++ (leBytes 2 0 ++ (leBytes 4 number ++ ([1#8, 0#8, 0#8, 0#8] ++
      (zeros 4 ++ (as.flatMap stored ++ [0xff#8, 0xff#8, 0xff#8, 0xff#8])))))))))))))))))

/-- The standard information: four times, the flags and zeros. -/
def standard (t flags : Nat) : Attribute :=
  ⟨0x10, 0, none, .resident (leBytes 8 t ++ (leBytes 8 (t + 1) ++ (leBytes 8 (t + 2) ++ (leBytes 8 (t + 3) ++ (leBytes 4 flags ++ zeros 12)))))⟩

def piece (first last allocated size valid : Nat) (runs : List Run) : Piece := ⟨first, last, allocated, size, valid, 0, runs⟩

/-- The MFT. -/
def mftRuns : List Run := [.data 13 1]

def mftPiece : Piece := piece 0 12 6656 6656 6656 mftRuns

def attrs0 : List Attribute := [standard 5 6, mftPiece.attribute 0x80 0 none]

/-- The label is "Ab", the version 3.1. -/
def attrs3 : List Attribute :=
  [⟨0x60, 0, none, .resident (units [0x41, 0x62])⟩, ⟨0x70, 0, none, .resident (zeros 8 ++ [3#8, 1#8, 1#8, 0#8])⟩]

/-- The key of an entry of a directory: the name is that of a Windows file. -/
def key (parent : Nat) (name : List Nat) : List Byte :=
  leBytes 8 parent ++ (zeros 56 ++ (leBytes 1 name.length ++ ([1#8] ++ units name)))

def root5 : Nat := 5 + 5 * 2 ^ 48

def dot : DirectoryEntry := ⟨root5, key root5 [0x2e]⟩
/-- "a" is file 7, "File" is file 8, "x" is file 11. -/
def fileA : DirectoryEntry := ⟨7 + 2 * 2 ^ 48, key root5 [0x61]⟩
def fileF : DirectoryEntry := ⟨8 + 3 * 2 ^ 48, key root5 [0x46, 0x69, 0x6c, 0x65]⟩
def fileX : DirectoryEntry := ⟨11 + 4 * 2 ^ 48, key root5 [0x78]⟩

/-- A value of an index node. -/
def value (e : DirectoryEntry) (flags : Nat) (branch : List Byte) : List Byte :=
  let length := round (16 + e.key.length) + branch.length
  leBytes 8 e.reference ++ (leBytes 2 length ++ (leBytes 2 e.key.length ++ (leBytes 4 flags ++ (pad (round e.key.length) e.key ++ branch))))

def noEntry : DirectoryEntry := ⟨0, []⟩

/-- The root node has "File" and what is before it, and "x". -/
def rootValues : List Byte := value fileF 1 (leBytes 8 0) ++ (value fileX 0 [] ++ value noEntry 2 [])

def rootData : List Byte :=
  leBytes 4 0x30 ++ (leBytes 4 1 ++ (leBytes 4 512 ++ (leBytes 4 1 ++ (leBytes 4 16 ++ (leBytes 4 (16 + rootValues.length) ++ (leBytes 4 (16 + rootValues.length) ++
    (leBytes 4 1 ++ rootValues)))))))

def indexPiece : Piece := piece 0 0 512 512 512 [.data 1 14]

def attrs5 : List Attribute := [standard 100 6, ⟨0x90, 0, i30, .resident rootData⟩, indexPiece.attribute 0xa0 0 i30]

/-- The other index record: "." and "a". -/
def indexValues : List Byte := value dot 0 [] ++ (value fileA 0 [] ++ value noEntry 2 [])

def indexRecord : List Byte :=
  pad 512 ([0x49#8, 0x4e#8, 0x44#8, 0x58#8] ++ (leBytes 2 40 ++ (leBytes 2 2 ++ (leBytes 8 9 ++ (leBytes 8 0 ++ (leBytes 4 24 ++ (leBytes 4 (24 + indexValues.length) ++
    (leBytes 4 488 ++ (leBytes 4 0 ++ ([1#8, 0#8, 0#8, 0#8] ++ (zeros 4 ++ indexValues)))))))))))

/-- A symbolic link to "x", shown as "X". -/
def attrs7 : List Attribute :=
  [standard 200 0x420, ⟨0xc0, 0, none, .resident (leBytes 4 0xa000000c ++ (leBytes 2 16 ++ (leBytes 2 0 ++ (leBytes 2 0 ++ (leBytes 2 2 ++ (leBytes 2 2 ++ (leBytes 2 2 ++
    (leBytes 4 1 ++ (units [0x78] ++ units [0x58])))))))))⟩]

/-- An entry of an attribute list. -/
def listEntry (kind first reference : Nat) : List Byte :=
  pad 32 (leBytes 4 kind ++ (leBytes 2 32 ++ (leBytes 1 0 ++ (leBytes 1 26 ++ (leBytes 8 first ++ leBytes 8 reference)))))

/-- The data of file 8 are in two clusters, each described in a record. -/
def listBytes : List Byte := listEntry 0x10 0 (8 + 3 * 2 ^ 48) ++ (listEntry 0x80 0 (8 + 3 * 2 ^ 48) ++ (listEntry 0x80 1 (9 + 3 * 2 ^ 48) ++ []))

def pieceF : Piece := piece 0 0 1024 700 600 [.data 1 16]
def pieceG : Piece := piece 1 1 0 0 0 [.data 1 15]

def attrs8 : List Attribute := [standard 300 0x20, ⟨0x20, 0, none, .resident listBytes⟩, pieceF.attribute 0x80 0 none]
/-- File 6 is deleted. -/
def attrs6 : List Attribute := [standard 150 0x20]

def attrs9 : List Attribute := [pieceG.attribute 0x80 0 none]

/-- The table of upper case characters: the rest is not stored. -/
def upperPiece : Piece := piece 0 255 131072 131072 512 [.data 1 19, .sparse 255]

def attrs10 : List Attribute := [standard 6 6, upperPiece.attribute 0x80 0 none]

/-- File 11 has the contents "hi" and the stream "s". -/
def streamPiece : Piece := piece 0 0 512 300 300 [.data 1 15]

def attrs11 : List Attribute := [standard 400 0x20, ⟨0x80, 0, none, .resident [0x68#8, 0x69#8]⟩, streamPiece.attribute 0x80 0 (some [0x73])]

/-- File 4 is compressed, in units of two clusters: one that is stored, one that is compressed and one that is zero. -/
def compressedPiece : Piece := ⟨0, 5, 3072, 2600, 2500, 1, [.data 2 15, .data 1 17, .sparse 1, .sparse 2]⟩

def attrs4 : List Attribute := [standard 50 0x820, compressedPiece.attribute 0x80 1 none]

/-- "cd" 50 times. -/
def compressedBlock : Lznt1.Block := .compressed [[.literal 0x63#8, .literal 0x64#8, .copy 2 98]]

/-- The reparse point of the Windows Overlay Filter. -/
def overlay (method : Nat) : Attribute :=
  ⟨0xc0, 0, none, .resident (leBytes 4 0x80000017 ++ (leBytes 2 16 ++ (leBytes 2 0 ++ (leBytes 4 1 ++ (leBytes 4 2 ++ (leBytes 4 1 ++ leBytes 4 method))))))⟩

/-- "WofCompressedData" -/
def wofName : Option (List Nat) := some [0x57, 0x6f, 0x66, 0x43, 0x6f, 0x6d, 0x70, 0x72, 0x65, 0x73, 0x73, 0x65, 0x64, 0x44, 0x61, 0x74, 0x61]

/-- File 1 is compressed by the Windows Overlay Filter, with LZX: 31 bytes. -/
def wofBytes : List Byte :=
  [0, 32, 0, 240, 0, 0, 0, 0, 0, 0, 34, 16, 254, 15, 255, 143, 192, 255, 0, 0, 0, 0, 0, 0, 2, 0, 65, 4, 13, 125, 255, 175, 225, 255, 0, 0, 0, 0, 0, 0, 0, 0, 32, 18, 3, 129, 255, 255, 247, 255, 64, 140, 70, 0, 109, 219, 32, 178, 0, 0, 0, 0, 0, 0, 34, 0, 254, 15, 255, 135, 240, 255, 0, 16, 0, 0, 0, 0, 0, 0, 8, 1, 212, 63, 239, 251, 32, 130, 0, 0, 0, 0, 0, 0, 0, 0, 140, 69, 191, 95, 252, 126, 44, 251, 24, 0, 1, 0, 0, 0, 2, 0, 0, 0, 3, 0, 0, 0, 232, 32, 0, 0, 0, 1, 2, 3, 4, 5, 6, 7]

def wofShown : Piece := piece 0 0 512 31 31 [.sparse 1]
def wofPiece : Piece := piece 0 0 512 130 130 [.data 1 18]

def attrs1 : List Attribute := [standard 20 0x420, wofShown.attribute 0x80 0 none, wofPiece.attribute 0x80 0 wofName, overlay 1]

/-- File 12 is compressed by the Windows Overlay Filter too, but its second block ends before it starts; the last 500 bytes of the file are not valid. -/
def badBytes : List Byte := leBytes 4 5 ++ (leBytes 4 3 ++ [1#8, 2#8, 3#8, 4#8, 5#8, 6#8])

def badShown : Piece := piece 0 19 10240 9000 8500 [.sparse 20]
def badPiece : Piece := piece 0 0 512 14 14 [.data 1 20]

def attrs12 : List Attribute := [standard 30 0x420, badShown.attribute 0x80 0 none, badPiece.attribute 0x80 0 wofName, overlay 0]

def upperBytes : List Byte := units ((List.range 256).map fun c => if 0x61 ≤ c ∧ c ≤ 0x7a then c - 32 else c)

def boot : List Byte :=
  zeros 3 ++ ([0x4e#8, 0x54#8, 0x46#8, 0x53#8, 0x20#8, 0x20#8, 0x20#8, 0x20#8] ++ (leBytes 2 512 ++ (leBytes 1 1 ++ (zeros 26 ++ (leBytes 8 21 ++ (leBytes 8 1 ++
    (leBytes 8 2 ++ (leBytes 4 0xf7 ++ (leBytes 4 0xf7 ++ (leBytes 8 0x1122334455667788 ++ (zeros 430 ++ [0x55#8, 0xaa#8])))))))))))

def protected1 (record : List Byte) : List Byte := protect [1#8, 0#8] 1 record

def U : List Byte :=
  boot ++ (protected1 (entry 0 1 0 attrs0) ++ (protected1 (entry 1 7 0 attrs1) ++ (zeros 512 ++ (protected1 (entry 3 3 0 attrs3) ++ (protected1 (entry 4 4 0 attrs4) ++ (protected1 (entry 5 5 0 attrs5) ++ (protected1 (entry 6 6 0 attrs6 0) ++
    (protected1 (entry 7 2 0 attrs7) ++ (protected1 (entry 8 3 0 attrs8) ++ (protected1 (entry 9 3 (8 + 3 * 2 ^ 48) attrs9) ++ (protected1 (entry 10 10 0 attrs10) ++
      (protected1 (entry 11 4 0 attrs11) ++ (protected1 (entry 12 8 0 attrs12) ++ (protected1 indexRecord ++ (List.replicate 512 0x61#8 ++ (List.replicate 512 0x62#8 ++
        (pad 512 compressedBlock.encode ++ (pad 512 wofBytes ++ (upperBytes ++ pad 512 badBytes)))))))))))))))))))

theorem length_U : U.length = 10752 := by decide +kernel

/-! ## The volume -/

@[irreducible] def tableOf (p : Piece) : List Byte := (clusterBytes U p []).take 131072

theorem tableOf_eq (p : Piece) : tableOf p = (clusterBytes U p []).take 131072 := by rw [tableOf]

@[irreducible] def upperTable : List Byte := tableOf upperPiece

theorem upperTable_eq : upperTable = tableOf upperPiece := by rw [upperTable]

def V : Volume := ⟨mftRuns, upperTable, some [0x41, 0x62], some (3, 1, 1)⟩

theorem size_U : clusterSize U = 512 := by decide +kernel

theorem entry_U : entrySize U = 512 := by decide +kernel

theorem boot_U : Boot U where
  length := by rw [length_U]; decide
  signature := by decide +kernel
  sector := Or.inr (Or.inl (by decide +kernel))
  sectors := Or.inl (by decide +kernel)
  cluster := ⟨9, by decide, by decide, size_U⟩
  entryByte := Or.inr (by decide +kernel)
  entry := by rw [entry_U]; decide
  indexByte := Or.inr (by decide +kernel)
  index := by decide +kernel
  total := by decide +kernel

theorem mftBytes_U : mftBytes U mftRuns = bytesAt U 512 6656 := by
  simp [mftBytes, mftRuns, Run.bytes, size_U, bytesAt]

def entryB (n : Nat) (record : List Byte) : Bool :=
  record.length = 512 ∧ field record 6 2 = 2 ∧ field record 4 2 + 4 ≤ 510 ∧ bytesAt record (field record 4 2) 4 = [1#8, 0#8] ++ sectorEnds 1 record ∧
  bytesAt U (512 + n * 512) 512 = protected1 record ∧ (n + 1) * 512 ≤ 6656 ∧ bytesAt record 0 4 = [0x46#8, 0x49#8, 0x4c#8, 0x45#8] ∧
  field record 28 4 = record.length ∧ 48 ≤ field record 4 2 ∧ field record 4 2 + 2 * field record 6 2 ≤ field record 20 2 ∧ field record 20 2 ≤ record.length

theorem entryB_stored {n : Nat} {record : List Byte} (h : entryB n record = true) : Stored (bytesAt U (512 + n * 512) 512) record ∧ Entry record := by
  simp only [entryB, decide_eq_true_eq] at h
  obtain ⟨h1, h2, h3, h4, h5, _, h7, h8, h9, h10, h11⟩ := h
  exact ⟨⟨1, [1#8, 0#8], by decide, h1, h2, h3, rfl, h4, h5⟩, h7, h8, Or.inr h9, h10, h11⟩

theorem bytesAt_bytesAt {d : List Byte} {a b c e : Nat} (h : c + e ≤ b) : bytesAt (bytesAt d a b) c e = bytesAt d (a + c) e := by
  have : min e (b - c) = e := by omega
  rw [bytesAt, bytesAt, bytesAt, List.drop_take, List.take_take, List.drop_drop, this]

theorem entryB_ok {n : Nat} {record : List Byte} (h : entryB n record = true) : EntryAt U mftRuns n record := by
  obtain ⟨hs, he⟩ := entryB_stored h
  simp only [entryB, decide_eq_true_eq] at h
  have hn := h.2.2.2.2.2.1
  have hl : (bytesAt U 512 6656).length = 6656 := by
    simp only [bytesAt, List.length_take, List.length_drop, length_U]
    decide
  refine ⟨by rw [mftBytes_U, hl, entry_U]; exact hn, ?_, he⟩
  rw [mftBytes_U, entry_U]
  have : bytesAt (bytesAt U 512 6656) (n * 512) 512 = bytesAt U (512 + n * 512) 512 := bytesAt_bytesAt (by omega)
  rw [this]
  exact hs

theorem record_ok {n : Nat} {record : List Byte} {as : List Attribute} (h : entryB n record = true) (ha : attributesB record (field record 20 2) as = true) :
    RecordAttributes U mftRuns n as := ⟨record, entryB_ok h, attributesB_ok _ _ ha⟩

theorem record0 : RecordAttributes U mftRuns 0 attrs0 := record_ok (record := entry 0 1 0 attrs0) (by decide +kernel) (by decide +kernel)
theorem record1 : RecordAttributes U mftRuns 1 attrs1 := record_ok (record := entry 1 7 0 attrs1) (by decide +kernel) (by decide +kernel)
theorem record3 : RecordAttributes U mftRuns 3 attrs3 := record_ok (record := entry 3 3 0 attrs3) (by decide +kernel) (by decide +kernel)
theorem record4 : RecordAttributes U mftRuns 4 attrs4 := record_ok (record := entry 4 4 0 attrs4) (by decide +kernel) (by decide +kernel)
theorem record5 : RecordAttributes U mftRuns 5 attrs5 := record_ok (record := entry 5 5 0 attrs5) (by decide +kernel) (by decide +kernel)
theorem record6 : RecordAttributes U mftRuns 6 attrs6 := record_ok (record := entry 6 6 0 attrs6 0) (by decide +kernel) (by decide +kernel)
theorem record7 : RecordAttributes U mftRuns 7 attrs7 := record_ok (record := entry 7 2 0 attrs7) (by decide +kernel) (by decide +kernel)
theorem record8 : RecordAttributes U mftRuns 8 attrs8 := record_ok (record := entry 8 3 0 attrs8) (by decide +kernel) (by decide +kernel)
theorem record9 : RecordAttributes U mftRuns 9 attrs9 := record_ok (record := entry 9 3 (8 + 3 * 2 ^ 48) attrs9) (by decide +kernel) (by decide +kernel)
theorem record10 : RecordAttributes U mftRuns 10 attrs10 := record_ok (record := entry 10 10 0 attrs10) (by decide +kernel) (by decide +kernel)
theorem record11 : RecordAttributes U mftRuns 11 attrs11 := record_ok (record := entry 11 4 0 attrs11) (by decide +kernel) (by decide +kernel)
theorem record12 : RecordAttributes U mftRuns 12 attrs12 := record_ok (record := entry 12 8 0 attrs12) (by decide +kernel) (by decide +kernel)

theorem inVolume {p : Piece} {ps : List Piece}
    (h : (((p :: ps).flatMap Piece.runs).all fun r => match r with
      | .data count lcn => 0 < count ∧ (lcn + count) * 512 ≤ 10752
      | .sparse count => 0 < count) = true)
    (ha : ((p :: ps).flatMap Piece.runs |>.map fun r => r.count * 512).sum = p.allocated) (hs : 0 < p.allocated) (hf : p.allocated + 512 < 2 ^ 63)
    (hv : p.valid ≤ p.size) (hz : p.valid ≤ p.allocated) : InVolume U p ps := by
  have hm : ∀ q ∈ p :: ps, ∀ r ∈ q.runs, r ∈ (p :: ps).flatMap Piece.runs := fun q hq r hr => List.mem_flatMap.2 ⟨q, hq, hr⟩
  refine ⟨?_, ?_, by rw [size_U]; exact ha, hs, by rw [size_U]; exact hf, hv, hz⟩
  · intro q hq r hr
    have := List.all_eq_true.1 h r (hm q hq r hr)
    cases r <;> simp only [decide_eq_true_eq] at this <;> simp only [Run.count] <;> omega
  · intro q hq count lcn hr
    have := List.all_eq_true.1 h _ (hm q hq _ hr)
    simp only [decide_eq_true_eq] at this
    rw [size_U, length_U]
    exact this.2

theorem mft_U : Mft U mftRuns where
  first := ⟨entry 0 1 0 attrs0, attrs0, mftPiece, by decide +kernel, by
      have := (entryB_stored (n := 0) (record := entry 0 1 0 attrs0) (by decide +kernel)).1
      have h : mftStart U = 1 := by decide +kernel
      rw [h, size_U, entry_U]
      exact this, (entryB_stored (n := 0) (record := entry 0 1 0 attrs0) (by decide +kernel)).2,
    attributesB_ok _ _ (by decide +kernel), soundB_ok (by decide +kernel),
    ⟨by decide +kernel, rfl, List.pairwise_singleton _ _, rfl, Or.inr rfl, trivial⟩, .single (by decide +kernel), by rw [size_U]; rfl, by rw [entry_U]; decide⟩
  data := by
    intro r hr
    rw [mftRuns, List.mem_singleton] at hr
    exact ⟨13, 1, hr, by decide, by rw [size_U, length_U]; decide⟩
  whole := by
    intro r hr
    rw [mftRuns, List.mem_singleton] at hr
    rw [hr, size_U, entry_U]
    decide

/-- The sample is a volume. -/
theorem volume_U : IsVolume U V where
  boot := boot_U
  mft := mft_U
  volume := ⟨attrs3, record3, soundB_ok (by decide +kernel), by decide +kernel, Or.inr ⟨0, units [0x41, 0x62], rfl, by unfold Resident; decide +kernel, rfl, by decide +kernel⟩,
    Or.inr ⟨0, zeros 8 ++ [3#8, 1#8, 1#8, 0#8], rfl, by unfold Resident; decide +kernel, by decide, by decide +kernel⟩⟩
  upper := ⟨attrs10, 0, upperPiece, [], record10, soundB_ok (by decide +kernel), by decide +kernel, rfl,
    ⟨by decide +kernel, rfl, List.pairwise_singleton _ _, rfl, Or.inr rfl, trivial⟩,
    inVolume (by decide) (by decide) (by decide) (by decide) (by decide) (by decide), by decide, by decide, upperTable_eq.trans (tableOf_eq upperPiece)⟩

theorem short_ok {as : List Attribute} (h : (as.all fun a => a.kind ≠ 0x20 || !inClusters a.value) = true) : ShortList U as := by
  intro a ha hk f l x s v u r hv
  have := List.all_eq_true.1 h a ha
  simp [hk, hv, inClusters] at this

theorem file1 : IsFile U mftRuns 1 attrs1 where
  attributes := .single record1 (by decide +kernel)
  sound := soundB_ok (by decide +kernel)
  short := short_ok (by decide +kernel)

theorem file12 : IsFile U mftRuns 12 attrs12 where
  attributes := .single record12 (by decide +kernel)
  sound := soundB_ok (by decide +kernel)
  short := short_ok (by decide +kernel)

theorem file4 : IsFile U mftRuns 4 attrs4 where
  attributes := .single record4 (by decide +kernel)
  sound := soundB_ok (by decide +kernel)
  short := short_ok (by decide +kernel)

theorem file5 : IsFile U mftRuns 5 attrs5 where
  attributes := .single record5 (by decide +kernel)
  sound := soundB_ok (by decide +kernel)
  short := short_ok (by decide +kernel)

theorem file6 : IsFile U mftRuns 6 attrs6 where
  attributes := .single record6 (by decide +kernel)
  sound := soundB_ok (by decide +kernel)
  short := short_ok (by decide +kernel)

theorem file7 : IsFile U mftRuns 7 attrs7 where
  attributes := .single record7 (by decide +kernel)
  sound := soundB_ok (by decide +kernel)
  short := short_ok (by decide +kernel)

theorem list8 : ListAt listBytes [8 + 3 * 2 ^ 48, 8 + 3 * 2 ^ 48, 9 + 3 * 2 ^ 48] := by
  have h := ListAt.cons (entry := listEntry 0x10 0 (8 + 3 * 2 ^ 48)) (by decide +kernel) (by decide +kernel)
    (ListAt.cons (entry := listEntry 0x80 0 (8 + 3 * 2 ^ 48)) (by decide +kernel) (by decide +kernel)
      (ListAt.cons (entry := listEntry 0x80 1 (9 + 3 * 2 ^ 48)) (by decide +kernel) (by decide +kernel) ListAt.nil))
  have e : [field (listEntry 0x10 0 (8 + 3 * 2 ^ 48)) 16 8, field (listEntry 0x80 0 (8 + 3 * 2 ^ 48)) 16 8, field (listEntry 0x80 1 (9 + 3 * 2 ^ 48)) 16 8] =
      [8 + 3 * 2 ^ 48, 8 + 3 * 2 ^ 48, 9 + 3 * 2 ^ 48] := by decide +kernel
  rw [← e]
  exact h

theorem file8 : IsFile U mftRuns 8 (attrs8 ++ attrs9) where
  attributes := by
    have := FileAttributes.list (n := 8) (others := [9]) (rest := [attrs9]) record8
      ⟨⟨0x20, 0, none, .resident listBytes⟩, by simp [attrs8], rfl, rfl, Or.inl rfl⟩ list8 (List.pairwise_singleton _ _)
      (by intro m; simp; omega) (.cons record9 .nil)
    simpa using this
  sound := soundB_ok (by decide +kernel)
  short := short_ok (by decide +kernel)

theorem file11 : IsFile U mftRuns 11 attrs11 where
  attributes := .single record11 (by decide +kernel)
  sound := soundB_ok (by decide +kernel)
  short := short_ok (by decide +kernel)

/-! ## A compressed file -/

def compressedUnits : List (List (Option Nat) × List Byte) :=
  [([some 15, some 16], List.replicate 512 0x61#8 ++ List.replicate 512 0x62#8),
   ([some 17, none], (List.replicate 50 [0x63#8, 0x64#8]).flatten ++ zeros 924),
   ([none, none], zeros 1024)]

theorem compressed_wf : compressedBlock.wf := by
  simp [compressedBlock, Lznt1.Block.wf, Lznt1.GroupsWf, Lznt1.TokensWf, Lznt1.Token.wf, Lznt1.Token.length, Lznt1.lengthBits, Lznt1.distanceBits, Lznt1.total,
    Lznt1.encodeGroups, Lznt1.elements, Lznt1.Token.encode, Lznt1.le16]

theorem compressed_bytes : Lznt1.denote [compressedBlock] = (List.replicate 50 [0x63#8, 0x64#8]).flatten := by decide +kernel

theorem units4 : Units U compressedPiece [] compressedUnits where
  exponent := by decide
  fits := by rw [size_U]; decide
  whole := by decide +kernel
  all := by decide +kernel
  bytes := by
    intro x hx
    rw [size_U]
    simp only [compressedUnits, List.mem_cons, List.not_mem_nil, or_false] at hx
    rcases hx with rfl | rfl | rfl
    · have := UnitIs.stored (U := U) (bs := 512) [15, 16] (by decide)
      have e : NtfsFs.stored U 512 [15, 16] = List.replicate 512 0x61#8 ++ List.replicate 512 0x62#8 := by decide +kernel
      rw [e] at this
      exact this
    · have hl : (Lznt1.denote [compressedBlock]).length = 100 := by rw [compressed_bytes]; decide +kernel
      have := UnitIs.compressed (U := U) (bs := 512) [17] 1 [compressedBlock] (zeros (512 - compressedBlock.encode.length)) (by decide) (by decide)
        (by simpa using compressed_wf) (by decide +kernel) (Or.inr ⟨zeros (510 - compressedBlock.encode.length), by decide +kernel⟩) (by rw [hl]; decide)
      rw [hl, compressed_bytes] at this
      exact this
    · exact UnitIs.sparse (U := U) (bs := 512) 2

/-! ## The root directory -/

theorem root_values : ValuesAt (Tree U ⟨512, [.data 1 14]⟩ 1) rootData (16 + field rootData (16 + 4) 4) (16 + 16) [dot, fileA, fileF, fileX] := by
  have hrec : Stored (bytesAt U 7168 512) indexRecord := ⟨1, [1#8, 0#8], by decide, by decide +kernel, by decide +kernel, by decide +kernel, rfl, by decide +kernel, by decide +kernel⟩
  have hsub : Tree U ⟨512, [.data 1 14]⟩ 1 0 [dot, fileA] := by
    have hbytes : ([Run.data 1 14].flatMap (Run.bytes U (clusterSize U))) = bytesAt U 7168 512 := by simp [Run.bytes, size_U, bytesAt]
    have hl : (bytesAt U 7168 512).length = 512 := by simp [bytesAt, length_U]
    refine ⟨indexRecord, ⟨?_, ?_, ?_, by decide +kernel, by decide +kernel⟩, by decide +kernel, by decide +kernel, by decide +kernel, ?_⟩
    · exact ⟨0, by simp⟩
    · show 0 * _ + 512 ≤ ([Run.data 1 14].flatMap (Run.bytes U (clusterSize U))).length
      rw [hbytes, hl]
      simp
    · show Stored (bytesAt ([Run.data 1 14].flatMap (Run.bytes U (clusterSize U))) (0 * _) 512) indexRecord
      rw [hbytes, Nat.zero_mul, bytesAt_bytesAt (by decide)]
      exact hrec
    · refine .next (before := []) (branch := none) (length := 88) (e := dot) ⟨by decide +kernel, by decide, by decide +kernel, by decide +kernel, by decide +kernel, by decide +kernel, by decide +kernel, by decide +kernel⟩
        (by unfold DirectoryEntry.Ok; decide +kernel) rfl ?_
      refine .next (before := []) (branch := none) (length := 88) (e := fileA) ⟨by decide +kernel, by decide, by decide +kernel, by decide +kernel, by decide +kernel, by decide +kernel, by decide +kernel, by decide +kernel⟩
        (by unfold DirectoryEntry.Ok; decide +kernel) rfl ?_
      exact .last (branch := none) (length := 16) (e := noEntry) ⟨by decide +kernel, by decide, by decide +kernel, by decide +kernel, by decide +kernel, by decide +kernel, by decide +kernel, by decide +kernel⟩
        (by decide +kernel) rfl
  refine .next (before := [dot, fileA]) (branch := some 0) (length := 104) (e := fileF) ⟨by decide +kernel, by decide, by decide +kernel, by decide +kernel, by decide +kernel, by decide +kernel, by decide +kernel, by decide +kernel⟩
    (by unfold DirectoryEntry.Ok; decide +kernel) hsub ?_
  refine .next (before := []) (branch := none) (length := 88) (e := fileX) ⟨by decide +kernel, by decide, by decide +kernel, by decide +kernel, by decide +kernel, by decide +kernel, by decide +kernel, by decide +kernel⟩
    (by unfold DirectoryEntry.Ok; decide +kernel) rfl ?_
  exact .last (branch := none) (length := 16) (e := noEntry) ⟨by decide +kernel, by decide, by decide +kernel, by decide +kernel, by decide +kernel, by decide +kernel, by decide +kernel, by decide +kernel⟩
    (by decide +kernel) rfl

def rootEntries : List DirectoryEntry := [dot, fileA, fileF, fileX]

theorem upper_start : ∃ rest, upperTable = upperBytes ++ rest := by
  have h1 : bytesAt U 9728 512 = upperBytes := by decide +kernel
  have h2 : upperBytes.length = 512 := by decide +kernel
  have h3 : ((upperPiece :: []).flatMap Piece.runs).flatMap (Run.bytes U (clusterSize U)) = bytesAt U 9728 512 ++ Run.bytes U 512 (.sparse 255) := by
    have e : ((upperPiece :: []).flatMap Piece.runs) = [.data 1 19, .sparse 255] := by decide
    have e1 : Run.bytes U 512 (.data 1 19) = bytesAt U 9728 512 := by simp only [Run.bytes, bytesAt, Nat.reduceMul]
    rw [e, List.flatMap_cons, List.flatMap_cons, List.flatMap_nil, List.append_nil, size_U, e1]
  refine ⟨(List.replicate (131072 - 512) 0#8).take (131072 - 512), ?_⟩
  rw [upperTable_eq, tableOf_eq]
  unfold clusterBytes contents
  rw [h3, h1]
  show List.take 131072 (List.take 512 (upperBytes ++ _) ++ List.replicate (131072 - 512) 0#8) = _
  rw [List.take_left' h2, List.take_append, List.take_of_length_le (by rw [h2]; decide), h2]

theorem upper_small {c : Nat} (hc : c < 256) : upperCase upperTable c = field upperBytes (2 * c) 2 := by
  obtain ⟨rest, h⟩ := upper_start
  have h2 : upperBytes.length = 512 := by decide +kernel
  unfold upperCase field bytesAt
  rw [h, List.drop_append_of_le_length (by omega), List.take_append_of_le_length (by rw [List.length_drop]; omega)]

theorem root_node : NodeAt (Tree U ⟨512, [.data 1 14]⟩ 1) rootData 16 rootEntries := by
  have h : field rootData 16 4 = 16 := by decide +kernel
  refine ⟨by decide +kernel, by decide +kernel, by decide +kernel, ?_⟩
  rw [h]
  exact root_values

theorem entries5 : ∃ depth a, Directory U attrs5 depth a rootEntries ∧ HandledIndex U depth a :=
  ⟨1, ⟨512, [.data 1 14]⟩, .tree (flags := 0) (p := indexPiece) (ps := [])
    ⟨⟨0, by unfold Resident; decide +kernel⟩, by decide +kernel, by decide +kernel, by decide +kernel, by decide +kernel⟩ rfl
    ⟨by decide +kernel, rfl, List.pairwise_singleton _ _, rfl, Or.inr rfl, trivial⟩
    (inVolume (by decide) (by decide) (by decide) (by decide) (by decide) (by decide))
    root_node,
    ⟨by decide, fun _ => by rw [size_U]; exact Nat.le_refl _, fun r hr => ⟨1, 14, List.mem_singleton.1 hr⟩, fun r hr => by rw [List.mem_singleton.1 hr, size_U]; decide, by decide⟩⟩

theorem insensitive5 : ¬ CaseSensitive attrs5 := by
  rintro ⟨a, ha, data, hk, hn, hv, h1, h2⟩
  simp only [attrs5, List.mem_cons, List.not_mem_nil, or_false] at ha
  rcases ha with rfl | rfl | rfl
  · simp only [standard, Value.resident.injEq] at hv
    subst hv
    exact absurd h2 (by decide +kernel)
  · cases hk
  · cases hk

/-- Upper case letters. -/
theorem fold_small (l m : List Nat) (hl : ∀ c ∈ l, c < 256) (h : l.map (fun c => field upperBytes (2 * c) 2) = m) : l.map (upperCase upperTable) = m := by
  rw [← h]
  exact List.map_congr_left fun c hc => upper_small (hl c hc)

theorem fold_dot : dot.name.map (upperCase upperTable) = [0x2e] := fold_small _ _ (by decide +kernel) (by decide +kernel)
theorem fold_a : fileA.name.map (upperCase upperTable) = [0x41] := fold_small _ _ (by decide +kernel) (by decide +kernel)
theorem fold_f : fileF.name.map (upperCase upperTable) = [0x46, 0x49, 0x4c, 0x45] := fold_small _ _ (by decide +kernel) (by decide +kernel)
theorem fold_x : fileX.name.map (upperCase upperTable) = [0x58] := fold_small _ _ (by decide +kernel) (by decide +kernel)

theorem ordered5 : Ordered (List.map (upperCase upperTable)) rootEntries := by
  unfold Ordered rootEntries
  rw [← List.pairwise_map (f := fun e : DirectoryEntry => List.map (upperCase upperTable) e.name) (R := fun a b => a < b)]
  simp only [List.map_cons, List.map_nil, fold_dot, fold_a, fold_f, fold_x]
  decide

theorem lookup_ok (name folded : List Nat) (hl : ∀ c ∈ name, c < 256) (h : name.map (fun c => field upperBytes (2 * c) 2) = folded) :
    lookup (List.map (upperCase upperTable)) rootEntries name =
      if [0x2e] = folded then some dot else if [0x41] = folded then some fileA else if [0x46, 0x49, 0x4c, 0x45] = folded then some fileF
      else if [0x58] = folded then some fileX else none := by
  unfold lookup rootEntries
  simp only [List.find?_cons, List.find?_nil, fold_dot, fold_a, fold_f, fold_x, fold_small name folded hl h, decide_eq_true_eq]
  by_cases h1 : [0x2e] = folded
  · simp [h1]
  by_cases h2 : [0x41] = folded
  · simp [h1, h2]
  by_cases h3 : [0x46, 0x49, 0x4c, 0x45] = folded
  · simp [h1, h2, h3]
  by_cases h4 : [0x58] = folded
  · simp [h1, h2, h3, h4]
  · simp [h1, h2, h3, h4]

theorem lookup_file : lookup (List.map (upperCase upperTable)) rootEntries [0x46, 0x49, 0x4c, 0x45] = some fileF :=
  lookup_ok _ [0x46, 0x49, 0x4c, 0x45] (by decide) (by decide +kernel)

theorem lookup_x : lookup (List.map (upperCase upperTable)) rootEntries [0x78] = some fileX := lookup_ok _ [0x58] (by decide) (by decide +kernel)

theorem lookup_y : lookup (List.map (upperCase upperTable)) rootEntries [0x79] = none := lookup_ok _ [0x59] (by decide) (by decide +kernel)

/-- The root directory has ".", "a", "File" and "x". -/
theorem directory5 : IsDirectory U V.upper attrs5 (List.map (upperCase upperTable)) rootEntries :=
  ⟨entries5, .insensitive insensitive5, ordered5⟩

end Keramics.Props.NtfsSample
