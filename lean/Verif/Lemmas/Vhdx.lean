import Verif.Lemmas.SectorBitmap
import Verif.Lemmas.LazyWhole
import Verif.Lemmas.SparseImage
import Verif.Lemmas.Qcow
import Verif.Lemmas.Vhd
import Verif.Model.Vhdx
import Verif.Spec.Vhdx

/-! # Lemmas: VHDX images -/

namespace Keramics.Vhdx
open Keramics.Spec Keramics.Spec.Vhdx Keramics.BlockTree Keramics.Lazy

/-- The disk of the metadata. -/
def diskOf (m : Metadata) : Disk := ⟨m.blockSize, m.sectorSize, m.mediaSize, m.tableOffset, m.tableSize / 8, m.flags / 2 % 2 == 1⟩

def imageOf (m : Metadata) : Image := ⟨diskTypeOf m.flags, m.sectorSize, m.blockSize, m.mediaSize, m.tableOffset, m.tableSize / 8,
  8388608 * m.sectorSize / m.blockSize, 1048576 / (8388608 * m.sectorSize / m.blockSize)⟩

def treeOf (m : Metadata) : Lazy.Tree := BlockTree.new (m.tableSize / 8 * m.blockSize) (m.blockSize / m.sectorSize) m.sectorSize

/-- The values that are accepted. -/
structure Accepted (m : Metadata) : Prop where
  blockSize : 1048576 ≤ m.blockSize ∧ m.blockSize ≤ 268435456
  sectorSize : m.sectorSize = 512 ∨ m.sectorSize = 4096
  media : m.mediaSize ≤ m.tableSize / 8 * m.blockSize

theorem openImage_good (m : Metadata) (h32 : m.tableSize < 2 ^ 32) : R.Good (Accepted m) (openImage m) (fun p => p = (imageOf m, treeOf m) ∧ Accepted m) := by
  unfold openImage
  refine R.Good.bind (R.Good.require fun h => h.blockSize) fun _ hb => ?_
  refine R.Good.bind (R.Good.require fun h => h.sectorSize) fun _ hs => ?_
  have hc : 8388608 * m.sectorSize / m.blockSize ≠ 0 := by
    have : 1 ≤ 8388608 * m.sectorSize / m.blockSize := by
      rw [Nat.le_div_iff_mul_le (by omega)]
      omega
    omega
  simp only
  rw [R.check_true hc, R.ok_bind]
  have hmul : m.tableSize / 8 * m.blockSize ≤ 2 ^ 32 * 268435456 := Nat.mul_le_mul (by omega) (by omega)
  rw [R.mulU_ok (by omega), R.ok_bind]
  refine R.Good.bind (R.Good.require fun h => h.media) fun _ hm => ?_
  exact R.Good.ok ⟨rfl, hb, hs, hm⟩

theorem valid_cases {d : Disk} (h : Valid d) : 1 ≤ perChunk d ∧ 1048576 / perChunk d = bitmapSize d ∧ bitmapSize d * 8 = d.blockSize / d.sectorSize ∧
    2 ≤ d.blockSize / d.sectorSize ∧ d.sectorSize * (d.blockSize / d.sectorSize) = d.blockSize ∧ 1048576 ≤ d.blockSize ∧ d.blockSize ≤ 268435456 ∧ 1 ≤ bitmapSize d ∧
    perChunk d * bitmapSize d = 1048576 := by
  obtain ⟨k, h1, h2, h3⟩ := h.blockSize
  unfold perChunk bitmapSize
  rw [h3]
  rcases (show k = 20 ∨ k = 21 ∨ k = 22 ∨ k = 23 ∨ k = 24 ∨ k = 25 ∨ k = 26 ∨ k = 27 ∨ k = 28 by omega) with rfl | rfl | rfl | rfl | rfl | rfl | rfl | rfl | rfl <;>
    rcases h.sectorSize with hs | hs <;> rw [hs] <;> norm_num

section
variable {m : Metadata} {file : List Byte}

theorem readEntry_ok {i : Nat} {e : Nat × Nat} (h : readEntry (imageOf m) file i = .ok e) :
    i < (diskOf m).entries ∧ e = (state (diskOf m) file i, place (diskOf m) file i) := by
  unfold readEntry at h
  obtain ⟨_, h1, h⟩ := R.bind_eq_ok.1 h
  rw [R.require_eq_ok] at h1
  obtain ⟨p, h2, h⟩ := R.bind_eq_ok.1 h
  obtain ⟨_, rfl⟩ := addU_eq_ok.1 h2
  obtain ⟨d, h3, h⟩ := R.bind_eq_ok.1 h
  obtain ⟨h3, h4⟩ := readExactAt_eq_ok.1 h3
  rw [u64le_field (by omega), R.ok_bind, R.pure_eq, R.ok.injEq] at h
  refine ⟨h1, ?_⟩
  rw [← h, h3]
  have : field (List.take 8 (List.drop ((imageOf m).tableOffset + i * 8) file)) 0 8 = entry (diskOf m) file i := by
    show field (bytesAt file (m.tableOffset + i * 8) 8) 0 8 = field file (m.tableOffset + i * 8) 8
    unfold field
    rw [bytesAt_bytesAt (by omega), Nat.add_zero]
  rw [this]
  rfl

theorem readEntry_total {i : Nat} (hi : i < (diskOf m).entries) (ht : (diskOf m).tableOffset + (diskOf m).entries * 8 ≤ file.length) (hU : file.length < 2 ^ 63) :
    readEntry (imageOf m) file i = .ok (state (diskOf m) file i, place (diskOf m) file i) := by
  have h1 : (i + 1) * 8 ≤ (diskOf m).entries * 8 := Nat.mul_le_mul_right _ hi
  have e1 : (imageOf m).tableOffset = (diskOf m).tableOffset := rfl
  unfold readEntry
  rw [R.require_true (show i < (imageOf m).entries from hi), R.ok_bind, e1, R.addU_ok (by omega), R.ok_bind, readExactAt_ok (by omega), R.ok_bind]
  have hl : (bytesAt file ((diskOf m).tableOffset + i * 8) 8).length = 8 := bytesAt_length (by omega)
  show (u64le (bytesAt file ((diskOf m).tableOffset + i * 8) 8) 0 >>= _) = _
  rw [u64le_field (by omega), R.ok_bind]
  have : field (bytesAt file ((diskOf m).tableOffset + i * 8) 8) 0 8 = entry (diskOf m) file i := by
    unfold field entry
    rw [bytesAt_bytesAt (by omega), Nat.add_zero]
    rfl
  rw [this]
  rfl

/-- Where the code has every byte of the media: of a disk with parent the bitmap is used for every block that is not fully present. -/
def sourceCode (d : Disk) (file : List Byte) (x : Nat) : Source :=
  let block := x / d.blockSize
  let offset := x % d.blockSize
  let index := blockIndex d block
  if state d file index = 6 then .file (place d file index + offset)
  else if d.hasParent then
    if bit d file block (offset / d.sectorSize) then .file (place d file index + offset) else .parent
  else if state d file index < 6 then .zero else .file (place d file index + offset)

/-- All sectors of a block with a bitmap are in this file, or none is. -/
def WholeCode (d : Disk) (file : List Byte) : Prop :=
  d.hasParent = true → ∀ b, Used d b → state d file (blockIndex d b) ≠ 6 → ∀ i, i < d.blockSize / d.sectorSize → bit d file b i = bit d file b 0

theorem sourceCode_eq {d : Disk} {file : List Byte} (hst : StatesOk d file) {x : Nat} (hx : x < d.mediaSize) : sourceCode d file x = source d file x := by
  have hu : Used d (x / d.blockSize) := Nat.lt_of_le_of_lt (Nat.div_mul_le_self _ _) hx
  have hs := hst _ hu
  unfold sourceCode source
  simp only
  by_cases h6 : state d file (blockIndex d (x / d.blockSize)) = 6
  · rw [if_pos h6, if_pos h6]
  · rw [if_neg h6, if_neg h6]
    cases hp : d.hasParent with
    | false =>
      rw [hp] at hs
      simp only [Bool.false_eq_true, if_false] at hs ⊢
      have hlt8 : state d file (blockIndex d (x / d.blockSize)) < 8 := Nat.mod_lt _ (by omega)
      rw [if_pos (by omega)]
    | true =>
      rw [hp] at hs
      simp only [if_true] at hs ⊢
      rw [if_pos (by omega : state d file (blockIndex d (x / d.blockSize)) = 7)]

/-- The kinds of disks whose blocks are found. -/
def Layout (m : Metadata) : Prop :=
  (m.flags % 4 = 0 ∧ m.mediaSize ≤ perChunk (diskOf m) * m.blockSize) ∨ m.flags % 4 = 1 ∨ m.flags % 4 = 2

theorem entryIndex_eq {b : Nat} (hf : m.flags % 4 ≠ 0) : entryIndex (imageOf m) b = blockIndex (diskOf m) b := by
  have hd : (imageOf m).diskType ≠ .fixed := by
    show diskTypeOf m.flags ≠ .fixed
    unfold diskTypeOf
    rw [if_neg hf]
    split
    · simp
    · split <;> simp
  unfold entryIndex blockIndex
  rw [if_neg hd]
  have e : (imageOf m).perChunk = perChunk (diskOf m) := rfl
  rw [e, Nat.mul_add, Nat.mul_one]
  have := Nat.div_add_mod b (perChunk (diskOf m))
  rw [Nat.mul_comm] at this
  omega

theorem entryIndex_used {b : Nat} (hv : Valid (diskOf m)) (hl : Layout m) (hu : Used (diskOf m) b) : entryIndex (imageOf m) b = blockIndex (diskOf m) b := by
  rcases hl with ⟨h0, h⟩ | h | h
  · have hc := valid_cases hv
    have hd : (imageOf m).diskType = .fixed := by
      show diskTypeOf m.flags = .fixed
      unfold diskTypeOf
      rw [if_pos h0]
    unfold entryIndex blockIndex
    rw [if_pos hd]
    have hu' : b * m.blockSize < m.mediaSize := hu
    have : b < perChunk (diskOf m) := Nat.lt_of_mul_lt_mul_right (Nat.lt_of_lt_of_le hu' h)
    rw [Nat.div_eq_of_lt this]
    rfl
  · exact entryIndex_eq (by omega)
  · exact entryIndex_eq (by omega)

theorem differential_iff : (imageOf m).diskType = .differential ↔ m.flags % 4 = 2 := by
  show diskTypeOf m.flags = .differential ↔ _
  unfold diskTypeOf
  by_cases h0 : m.flags % 4 = 0
  · rw [if_pos h0]; simp [h0]
  · rw [if_neg h0]
    by_cases h1 : m.flags % 4 = 1
    · rw [if_pos h1]; simp [h1]
    · rw [if_neg h1]
      by_cases h2 : m.flags % 4 = 2
      · rw [if_pos h2]; simp [h2]
      · rw [if_neg h2]; simp [h2]

theorem hasParent_iff (hl : Layout m) : (diskOf m).hasParent = true ↔ m.flags % 4 = 2 := by
  show (m.flags / 2 % 2 == 1) = true ↔ _
  rw [beq_iff_eq]
  unfold Layout at hl
  omega

theorem bitmapIndex_eq {b : Nat} : (1 + b / (imageOf m).perChunk) * ((imageOf m).perChunk + 1) - 1 = bitmapIndex (diskOf m) b := by
  have e : (imageOf m).perChunk = perChunk (diskOf m) := rfl
  unfold bitmapIndex
  rw [e, Nat.add_mul, Nat.one_mul]
  omega

/-- The bits of a block. -/
def blockBits (d : Disk) (file : List Byte) (b : Nat) : List Bool := SectorBitmap.bits (bytesAt file (bitmapPlace d file b) (bitmapSize d))

theorem blockBits_length {d : Disk} {b : Nat} (hv : Valid d) (h : bitmapPlace d file b + bitmapSize d ≤ file.length) :
    (blockBits d file b).length = d.blockSize / d.sectorSize := by
  unfold blockBits
  rw [SectorBitmap.bits_length, bytesAt_length h, ← (valid_cases hv).2.2.1, Nat.mul_comm]

theorem blockBits_get {d : Disk} {b i : Nat} (hv : Valid d) (h : bitmapPlace d file b + bitmapSize d ≤ file.length) (hi : i < d.blockSize / d.sectorSize) :
    (blockBits d file b)[i]? = some (bit d file b i) := by
  have hb := (valid_cases hv).2.2.1
  unfold blockBits
  rw [SectorBitmap.bits_get (by rw [bytesAt_length h]; omega), Vhd.bytesAt_getD (by omega)]
  rfl

theorem place_lt {d : Disk} {i : Nat} : place d file i ≤ 2 ^ 64 - 2 ^ 20 := by
  have : entry d file i < 256 ^ 8 := by
    unfold entry field
    exact Nat.lt_of_lt_of_le (leNat_lt _) (Nat.pow_le_pow_right (by omega) (by unfold bytesAt; rw [List.length_take]; omega))
  unfold place
  omega

/-- Where the first bit of a bitmap is. -/
theorem readBitmap_spec {b : Nat} (hv : Valid (diskOf m)) {rs : List (Nat × Bool)} :
    readBitmap (imageOf m) file (bitmapPlace (diskOf m) file b) = .ok rs ↔
      (bitmapPlace (diskOf m) file b + bitmapSize (diskOf m) ≤ file.length ∧
        rs = SectorBitmap.ranges m.sectorSize (bit (diskOf m) file b 0) (blockBits (diskOf m) file b)) := by
  have hx := valid_cases hv
  have e : (imageOf m).bitmapSize = bitmapSize (diskOf m) := hx.2.1
  unfold readBitmap
  rw [e]
  have hbit : ∀ (h : bitmapPlace (diskOf m) file b + bitmapSize (diskOf m) ≤ file.length),
      (do let first ← R.get (bytesAt file (bitmapPlace (diskOf m) file b) (bitmapSize (diskOf m))) 0
          return SectorBitmap.ranges m.sectorSize (first.getLsbD 0) (SectorBitmap.bits (bytesAt file (bitmapPlace (diskOf m) file b) (bitmapSize (diskOf m)))) : R _) =
        .ok (SectorBitmap.ranges m.sectorSize (bit (diskOf m) file b 0) (blockBits (diskOf m) file b)) := by
    intro h
    have hpos : 0 < (bytesAt file (bitmapPlace (diskOf m) file b) (bitmapSize (diskOf m))).length := by rw [bytesAt_length h]; omega
    rw [(Qcow.get_field hpos).1, R.ok_bind, R.pure_eq]
    have h0 : (bytesAt file (bitmapPlace (diskOf m) file b) (bitmapSize (diskOf m)))[0] = file.getD (bitmapPlace (diskOf m) file b) 0#8 := by
      have := Vhd.bytesAt_getD (file := file) (o := bitmapPlace (diskOf m) file b) (n := bitmapSize (diskOf m)) (k := 0) (by omega)
      rw [Nat.add_zero, List.getD_eq_getElem?_getD, List.getElem?_eq_getElem hpos] at this
      exact this
    have hb0 : bit (diskOf m) file b 0 = (file.getD (bitmapPlace (diskOf m) file b) 0#8).getLsbD 0 := by
      unfold bit
      rw [Nat.zero_div, Nat.zero_mod, Nat.add_zero]
    rw [h0, hb0]
    unfold blockBits
    rfl
  constructor
  · intro h
    obtain ⟨data, hd, h⟩ := R.bind_eq_ok.1 h
    obtain ⟨rfl, hl⟩ := readExactAt_eq_ok.1 hd
    have hlen : bitmapPlace (diskOf m) file b + bitmapSize (diskOf m) ≤ file.length := by
      rw [List.length_take, List.length_drop] at hl; omega
    have := hbit hlen
    unfold bytesAt at this
    have h' := this.symm.trans h
    rw [R.ok.injEq] at h'
    exact ⟨hlen, h'.symm⟩
  · rintro ⟨h, rfl⟩
    rw [readExactAt_ok h, R.ok_bind]
    exact hbit h

end

section
variable {m : Metadata} {file : List Byte} (hv : Valid (diskOf m)) (hl : Layout m)
include hv hl

/-- A block that has no bitmap. -/
theorem block_right {b : Nat} (hpl : place (diskOf m) file (entryIndex (imageOf m) b) + m.blockSize < 2 ^ 64)
    (hd : ¬ (m.flags % 4 = 2 ∧ state (diskOf m) file (entryIndex (imageOf m) b) ≠ 6)) :
    Right (sourceCode (diskOf m) file) m.mediaSize ⟨b * m.blockSize, m.blockSize,
      if state (diskOf m) file (entryIndex (imageOf m) b) < 6 then ⟨b * m.blockSize, 0, m.blockSize, .sparse⟩
      else ⟨b * m.blockSize, place (diskOf m) file (entryIndex (imageOf m) b), m.blockSize, .inFile⟩⟩ := by
  have hx := valid_cases hv
  have hpos : 0 < m.blockSize := by have := hx.2.2.2.2.2.1; exact Nat.lt_of_lt_of_le (by omega) this
  have hsrc : ∀ y, y / m.blockSize = b → y < m.mediaSize → sourceCode (diskOf m) file y =
      if state (diskOf m) file (entryIndex (imageOf m) b) < 6 then .zero else .file (place (diskOf m) file (entryIndex (imageOf m) b) + y % m.blockSize) := by
    intro y hy hlt
    have hu : Used (diskOf m) b := by
      show b * m.blockSize < m.mediaSize
      rw [← hy]
      exact Nat.lt_of_le_of_lt (Nat.div_mul_le_self _ _) hlt
    rw [entryIndex_used hv hl hu] at hd ⊢
    unfold sourceCode
    simp only
    show (if state (diskOf m) file (blockIndex (diskOf m) (y / m.blockSize)) = 6 then _ else _) = _
    have hyb : y / (diskOf m).blockSize = b := hy
    rw [hy]
    by_cases h6 : state (diskOf m) file (blockIndex (diskOf m) b) = 6
    · rw [if_pos h6, if_neg (by omega), hyb]
      rfl
    · rw [if_neg h6]
      have h2 : ¬ m.flags % 4 = 2 := fun h => hd ⟨h, h6⟩
      have hp : (diskOf m).hasParent = false := by
        cases h : (diskOf m).hasParent with
        | false => rfl
        | true => exact absurd ((hasParent_iff hl).1 h) h2
      rw [hp, hyb]
      rfl
  by_cases hs6 : state (diskOf m) file (entryIndex (imageOf m) b) < 6
  · rw [if_pos hs6]
    refine ⟨rfl, rfl, by simp, by simp, fun y hy hlt => ?_⟩
    rw [hsrc y ((has_iff hpos).1 hy) hlt, if_pos hs6]
    rfl
  · rw [if_neg hs6]
    refine ⟨rfl, rfl, by simp, fun _ => hpl, fun y hy hlt => ?_⟩
    have hyb := (has_iff hpos).1 hy
    rw [hsrc y hyb hlt, if_neg hs6]
    have hm := Nat.div_add_mod y m.blockSize
    rw [hyb, Nat.mul_comm] at hm
    unfold sourceOf
    simp only
    congr 1
    omega

/-- What holds of the tree. -/
def TreeInv (m : Metadata) (file : List Byte) (t : Lazy.Tree) : Prop := (t.perNode = m.blockSize / m.sectorSize ∧ t.leafSize = m.sectorSize ∧
  t.dataSize = m.tableSize / 8 * m.blockSize) ∧ TreeRight (sourceCode (diskOf m) file) m.mediaSize t

theorem source_bit {b : Nat} (hu : Used (diskOf m) b) (hf : m.flags % 4 = 2) (h6 : state (diskOf m) file (blockIndex (diskOf m) b) ≠ 6) {y i : Nat}
    (h1 : b * m.blockSize + i * m.sectorSize ≤ y) (h3 : y < b * m.blockSize + i * m.sectorSize + m.sectorSize) (hi : i < m.blockSize / m.sectorSize) :
    sourceCode (diskOf m) file y = if bit (diskOf m) file b i then .file (place (diskOf m) file (blockIndex (diskOf m) b) + (y - b * m.blockSize)) else .parent := by
  have hx := valid_cases hv
  have hsz : m.sectorSize * (m.blockSize / m.sectorSize) = m.blockSize := hx.2.2.2.2.1
  have hss : 0 < m.sectorSize := by have : m.sectorSize = 512 ∨ m.sectorSize = 4096 := hv.sectorSize; omega
  have hpos : 0 < m.blockSize := by have := hx.2.2.2.2.2.1; exact Nat.lt_of_lt_of_le (by omega) this
  have hmul : (i + 1) * m.sectorSize ≤ m.blockSize / m.sectorSize * m.sectorSize := Nat.mul_le_mul_right _ hi
  rw [Nat.mul_comm (m.blockSize / m.sectorSize), hsz, Nat.succ_mul] at hmul
  have hd : y / m.blockSize = b := by rw [Nat.div_eq_iff hpos]; constructor <;> omega
  have hm := Nat.div_add_mod y m.blockSize
  rw [hd, Nat.mul_comm] at hm
  have ho : y % m.blockSize = y - b * m.blockSize := by omega
  have hi' : (y - b * m.blockSize) / m.sectorSize = i := by rw [Nat.div_eq_iff hss]; constructor <;> omega
  have hp : (diskOf m).hasParent = true := (hasParent_iff hl).2 hf
  unfold sourceCode
  simp only
  show (if state (diskOf m) file (blockIndex (diskOf m) (y / m.blockSize)) = 6 then _ else _) = _
  have e1 : y / (diskOf m).blockSize = b := hd
  have e2 : y % (diskOf m).blockSize = y - b * m.blockSize := ho
  have e3 : (y - b * m.blockSize) / (diskOf m).sectorSize = i := hi'
  rw [hd, if_neg h6, hp, if_pos rfl, e1, e2, e3]

theorem fill_sound {b x : Nat} {t t' : Lazy.Tree} (hpl : PlacesBelow (diskOf m) file) (ht : TreeInv m file t) (h : fill (imageOf m) file b x t = .ok t') :
    TreeInv m file t' := by
  have hx := valid_cases hv
  have hsz : m.sectorSize * (m.blockSize / m.sectorSize) = m.blockSize := hx.2.2.2.2.1
  have hp2 : 2 ≤ m.blockSize / m.sectorSize := hx.2.2.2.1
  have hss : 0 < m.sectorSize := by have : m.sectorSize = 512 ∨ m.sectorSize = 4096 := hv.sectorSize; omega
  have hen : m.tableSize / 8 < 2 ^ 29 := hv.entries
  have hpos : 0 < m.blockSize := by have := hx.2.2.2.2.2.1; exact Nat.lt_of_lt_of_le (by omega) this
  -- the index of a block of the tree
  have hidx : b < m.tableSize / 8 → entryIndex (imageOf m) b % 2 ^ 32 = entryIndex (imageOf m) b := by
    intro hb
    apply Nat.mod_eq_of_lt
    by_cases hf : m.flags % 4 = 0
    · have : entryIndex (imageOf m) b = b := by
        unfold entryIndex
        rw [if_pos]
        show diskTypeOf m.flags = .fixed
        unfold diskTypeOf
        rw [if_pos hf]
      omega
    · rw [entryIndex_eq hf]
      unfold blockIndex
      have := Nat.div_le_self b (perChunk (diskOf m))
      omega
  obtain ⟨⟨g1, g2, g3⟩, hr⟩ := ht
  unfold fill at h
  obtain ⟨e, he, h⟩ := R.bind_eq_ok.1 h
  obtain ⟨hlt, rfl⟩ := readEntry_ok he
  simp only at h
  have hinside : ∀ {size : Nat} {v : Lazy.Range} {t1 : Lazy.Tree}, 0 < size → BlockTree.insert t (b * m.blockSize) size v = .ok t1 → b < m.tableSize / 8 := by
    intro size v t1 hs h
    have := Lazy.insert_inside h
    rw [g3] at this
    exact Nat.lt_of_mul_lt_mul_right (show b * m.blockSize < m.tableSize / 8 * m.blockSize by omega)
  split at h
  next hc =>
    unfold fillBitmap at h
    simp only at h
    obtain ⟨e, he2, h⟩ := R.bind_eq_ok.1 h
    obtain ⟨hlt2, rfl⟩ := readEntry_ok he2
    simp only at h
    obtain ⟨off, ho, h⟩ := R.bind_eq_ok.1 h
    obtain ⟨-, rfl⟩ := addU_eq_ok.1 ho
    obtain ⟨rs, hrs, h⟩ := R.bind_eq_ok.1 h
    obtain ⟨media, hm, h⟩ := R.bind_eq_ok.1 h
    obtain ⟨-, rfl⟩ := mulU_eq_ok.1 hm
    rw [differential_iff] at hc
    have e1 : (imageOf m).blockSize = m.blockSize := rfl
    rw [e1] at h
    -- the bitmap is not empty
    have hne : ∃ size v rest, rs = (size, v) :: rest ∧ 0 < size := by
      unfold readBitmap at hrs
      obtain ⟨data, hd, hrs⟩ := R.bind_eq_ok.1 hrs
      obtain ⟨rfl, hdl⟩ := readExactAt_eq_ok.1 hd
      obtain ⟨first, hf, hrs⟩ := R.bind_eq_ok.1 hrs
      rw [R.pure_eq, R.ok.injEq] at hrs
      generalize hdata : List.take _ _ = data at hdl hf hrs
      cases data with
      | nil => cases hf
      | cons a data =>
        have : first = a := by cases hf; rfl
        subst this
        have hcov : SectorBitmap.Covers (imageOf m).sectorSize rs (SectorBitmap.bits (first :: data)) := by
          rw [← hrs]
          exact SectorBitmap.ranges_covers rfl
        cases rs with
        | nil =>
          have : SectorBitmap.bits (first :: data) = [] := hcov
          have := congrArg List.length this
          rw [SectorBitmap.bits_length] at this
          simp at this
        | cons q rs =>
          obtain ⟨n, rest, hn, hq, -⟩ := hcov
          exact ⟨q.1, q.2, rs, rfl, by rw [hq]; exact Nat.mul_pos hn hss⟩
    have hb : b < m.tableSize / 8 := by
      obtain ⟨size, v, rest, rfl, hs⟩ := hne
      rw [SectorBitmap.insertRanges] at h
      obtain ⟨t1, h1, -⟩ := R.bind_eq_ok.1 h
      exact hinside hs h1
    rw [hidx hb] at h hlt hc
    have hix : entryIndex (imageOf m) b = blockIndex (diskOf m) b := entryIndex_eq (by omega)
    rw [hix] at h hlt hc
    have hbi : bitmapIndex (diskOf m) b % 2 ^ 32 = bitmapIndex (diskOf m) b := by
      apply Nat.mod_eq_of_lt
      have h1 := Nat.div_mul_le_self b (perChunk (diskOf m))
      have h2 := Nat.div_le_self b (perChunk (diskOf m))
      have h3 : perChunk (diskOf m) ≤ 2 ^ 20 := by
        have := hx.2.2.2.2.2.2.2.2
        have e20 : (2:Nat) ^ 20 = 1048576 := by norm_num
        rw [e20, ← this]
        exact Nat.le_mul_of_pos_right _ hx.2.2.2.2.2.2.2.1
      unfold bitmapIndex
      rw [Nat.mul_add]
      omega
    rw [bitmapIndex_eq, hbi] at hrs hlt2
    have ebs : (imageOf m).bitmapSize = bitmapSize (diskOf m) := hx.2.1
    rw [ebs] at hrs
    obtain ⟨hlen, hrs⟩ := (readBitmap_spec hv).1 hrs
    have hhead : (blockBits (diskOf m) file b).head? = some (bit (diskOf m) file b 0) := by
      rw [List.head?_eq_getElem?, blockBits_get hv hlen (by omega)]
    have hcov : SectorBitmap.Covers m.sectorSize rs (blockBits (diskOf m) file b) := by rw [hrs]; exact SectorBitmap.ranges_covers hhead
    have hblen := blockBits_length hv hlen
    obtain ⟨k1, k2, k3⟩ := SectorBitmap.insertRanges_sound (source := sourceCode (diskOf m) file) (total := m.mediaSize) (l := m.sectorSize)
      (p := m.blockSize / m.sectorSize) (base := b * m.blockSize) (dataBase := place (diskOf m) file (blockIndex (diskOf m) b))
      (unset := .inParent) hss hp2 (by rw [hsz]; exact Nat.dvd_mul_left _ _) (Or.inr rfl) (all := blockBits (diskOf m) file b) hblen
      (by
        intro y i hy1 hy2 hy3 v hv'
        have hi : i < m.blockSize / m.sectorSize := by
          have : i < (blockBits (diskOf m) file b).length := (List.getElem?_eq_some_iff.1 hv').1
          rw [hblen] at this
          exact this
        rw [blockBits_get hv hlen hi, Option.some.injEq] at hv'
        have hu : Used (diskOf m) b := by
          show b * m.blockSize < m.mediaSize
          omega
        rw [source_bit hv hl hu hc.1 hc.2 hy1 hy2 hi, hv']
        simp) (by rw [hsz]; exact hpl _ hlt) rs 0 (by omega) hcov t t' g1 g2 hr
      (by rw [Nat.zero_mul, Nat.add_zero, Nat.add_zero]; exact h)
    exact ⟨⟨k1, k2, by rw [Lazy.insertRanges_dataSize h, g3]⟩, k3⟩
  next hc =>
    unfold fillBlock at h
    obtain ⟨media, hm, h⟩ := R.bind_eq_ok.1 h
    obtain ⟨-, rfl⟩ := mulU_eq_ok.1 hm
    have e1 : (imageOf m).blockSize = m.blockSize := rfl
    rw [e1] at h
    have hb := hinside hpos h
    rw [hidx hb] at h hlt hc
    rw [differential_iff] at hc
    obtain ⟨k1, k2, k3, k4⟩ := Lazy.insert_whole_sound hp2 hss hsz.symm g1 g2 hr (block_right hv hl (hpl _ hlt) hc) h
    exact ⟨⟨k1, k2, by rw [k3, g3]⟩, k4⟩

theorem new_inv : TreeInv m file (treeOf m) :=
  ⟨⟨rfl, rfl, rfl⟩, [], new_holds _ _ _ (by have : m.sectorSize = 512 ∨ m.sectorSize = 4096 := hv.sectorSize; omega), hv.media, fun r hr => by cases hr⟩

/-- Every history that succeeds is right. -/
theorem stream_right {parent : Option (List Byte)} (hpl : PlacesBelow (diskOf m) file) (hm : m.mediaSize < 2 ^ 63)
    (hin : LayeredInside file (parent.getD []) (sourceCode (diskOf m) file) m.mediaSize) (ops : List StreamOp) (hty : ∀ op ∈ ops, typed op) (tr)
    (h : Stream.run (stream (imageOf m) file parent) ⟨treeOf m, 0⟩ ops = .ok tr) :
    Trace true (layered file (parent.getD []) (sourceCode (diskOf m) file) m.mediaSize) m.mediaSize 0 tr :=
  Lazy.stream_sound (fill := fill (imageOf m) file) (blockSize := (imageOf m).blockSize) (TreeInv m file) (fun t h => h.2)
    (fun _ _ _ _ _ ht h => fill_sound hv hl hpl ht h) hin hm _ (new_inv hv hl) ops hty tr h

/-- The range of a block that is in the file as a whole or not at all. -/
def wholeRange (m : Metadata) (file : List Byte) (b : Nat) : Lazy.Range :=
  if m.flags % 4 = 2 ∧ state (diskOf m) file (blockIndex (diskOf m) b) ≠ 6 then
    if bit (diskOf m) file b 0 then ⟨b * m.blockSize, place (diskOf m) file (blockIndex (diskOf m) b), m.blockSize, .inFile⟩
    else ⟨b * m.blockSize, 0, m.blockSize, .inParent⟩
  else if state (diskOf m) file (blockIndex (diskOf m) b) < 6 then ⟨b * m.blockSize, 0, m.blockSize, .sparse⟩
  else ⟨b * m.blockSize, place (diskOf m) file (blockIndex (diskOf m) b), m.blockSize, .inFile⟩

theorem wholeRange_right {b : Nat} (hw : WholeCode (diskOf m) file) (ht : TableInside (diskOf m) file) (hpl : PlacesBelow (diskOf m) file) (hu : Used (diskOf m) b) :
    Right (sourceCode (diskOf m) file) m.mediaSize ⟨b * m.blockSize, m.blockSize, wholeRange m file b⟩ := by
  have hx := valid_cases hv
  have hsz : m.sectorSize * (m.blockSize / m.sectorSize) = m.blockSize := hx.2.2.2.2.1
  have hpos : 0 < m.blockSize := by have := hx.2.2.2.2.2.1; exact Nat.lt_of_lt_of_le (by omega) this
  have hss : 0 < m.sectorSize := by have : m.sectorSize = 512 ∨ m.sectorSize = 4096 := hv.sectorSize; omega
  have hp := hpl _ (ht.2 b hu).1
  have hix := entryIndex_used hv hl hu
  unfold wholeRange
  by_cases hc : m.flags % 4 = 2 ∧ state (diskOf m) file (blockIndex (diskOf m) b) ≠ 6
  · rw [if_pos hc]
    have hsrc : ∀ y, y / m.blockSize = b → sourceCode (diskOf m) file y = if bit (diskOf m) file b 0 then
        .file (place (diskOf m) file (blockIndex (diskOf m) b) + (y - b * m.blockSize)) else .parent := by
      intro y hy
      have hm := Nat.div_add_mod y m.blockSize
      rw [hy, Nat.mul_comm] at hm
      have hlt := Nat.mod_lt y hpos
      have hi : y % m.blockSize / m.sectorSize < m.blockSize / m.sectorSize := by
        rw [Nat.div_lt_iff_lt_mul hss, Nat.mul_comm, hsz]; exact hlt
      have hd := Nat.div_add_mod (y % m.blockSize) m.sectorSize
      rw [Nat.mul_comm] at hd
      have hml := Nat.mod_lt (y % m.blockSize) hss
      rw [source_bit hv hl hu hc.1 hc.2 (i := y % m.blockSize / m.sectorSize) (by omega) (by omega) hi, hw ((hasParent_iff hl).2 hc.1) b hu hc.2 _ hi]
    by_cases hb : bit (diskOf m) file b 0 = true
    · rw [if_pos hb]
      refine ⟨rfl, rfl, by simp, fun _ => hp, fun y hy _ => ?_⟩
      rw [hsrc y ((has_iff hpos).1 hy), if_pos hb]
      rfl
    · rw [if_neg hb]
      refine ⟨rfl, rfl, by simp, by simp, fun y hy _ => ?_⟩
      rw [hsrc y ((has_iff hpos).1 hy), if_neg hb]
      rfl
  · rw [if_neg hc]
    have := block_right hv hl (b := b) (by rw [hix]; exact hp) (by rw [hix]; exact hc)
    rw [hix] at this
    exact this

theorem fill_whole {b x : Nat} {t : Lazy.Tree} (hw : WholeCode (diskOf m) file) (ht : TableInside (diskOf m) file) (hpl : PlacesBelow (diskOf m) file)
    (hU : file.length < 2 ^ 63) (hu : Used (diskOf m) b) :
    fill (imageOf m) file b x t = BlockTree.insert t (b * m.blockSize) m.blockSize (wholeRange m file b) := by
  have hx := valid_cases hv
  have hsz : m.sectorSize * (m.blockSize / m.sectorSize) = m.blockSize := hx.2.2.2.2.1
  have hpos : 0 < m.blockSize := by have := hx.2.2.2.2.2.1; exact Nat.lt_of_lt_of_le (by omega) this
  have hbs : m.blockSize ≤ 268435456 := hx.2.2.2.2.2.2.1
  have hen : m.tableSize / 8 < 2 ^ 29 := hv.entries
  have hix := entryIndex_used hv hl hu
  obtain ⟨hin, hbm⟩ := ht.2 b hu
  have hin' : blockIndex (diskOf m) b < m.tableSize / 8 := hin
  have hp := hpl _ hin
  have hp' : place (diskOf m) file (blockIndex (diskOf m) b) + m.blockSize < 2 ^ 64 := hp
  have hb : b < 2 ^ 29 := Nat.lt_of_le_of_lt (Nat.le_add_right b _) (Nat.lt_trans hin' hen)
  have hmul : (b + 1) * m.blockSize ≤ 2 ^ 29 * 268435456 := Nat.mul_le_mul (by omega) hbs
  rw [Nat.succ_mul] at hmul
  have e1 : (imageOf m).blockSize = m.blockSize := rfl
  have ebs : (imageOf m).bitmapSize = bitmapSize (diskOf m) := hx.2.1
  unfold fill
  rw [hix, Nat.mod_eq_of_lt (by omega), readEntry_total hin ht.1 hU, R.ok_bind]
  simp only [differential_iff]
  unfold wholeRange
  split
  next hc =>
    obtain ⟨hbi, hbl⟩ := hbm ((hasParent_iff hl).2 hc.1)
    have hbi' : bitmapIndex (diskOf m) b < m.tableSize / 8 := hbi
    unfold fillBitmap
    simp only
    rw [bitmapIndex_eq, Nat.mod_eq_of_lt (by omega), readEntry_total hbi ht.1 hU, R.ok_bind]
    simp only
    have hpb : place (diskOf m) file (bitmapIndex (diskOf m) b) + b % perChunk (diskOf m) * bitmapSize (diskOf m) + bitmapSize (diskOf m) ≤ file.length := hbl
    have epc : (imageOf m).perChunk = perChunk (diskOf m) := rfl
    rw [ebs, epc, R.addU_ok (by omega), R.ok_bind]
    have hbits : blockBits (diskOf m) file b = List.replicate (m.blockSize / m.sectorSize) (bit (diskOf m) file b 0) := by
      apply List.ext_getElem?
      intro i
      by_cases hi : i < m.blockSize / m.sectorSize
      · rw [blockBits_get hv hbl hi, hw ((hasParent_iff hl).2 hc.1) b hu hc.2 i hi, List.getElem?_replicate_of_lt hi]
      · rw [List.getElem?_eq_none (by
          rw [blockBits_length hv hbl]
          show m.blockSize / m.sectorSize ≤ i
          omega), List.getElem?_eq_none (by rw [List.length_replicate]; omega)]
    have hrb := (readBitmap_spec (m := m) (file := file) (b := b) hv).2 ⟨hbl, rfl⟩
    unfold bitmapPlace at hrb
    rw [hrb, R.ok_bind, hbits, SectorBitmap.ranges_replicate, Nat.mul_comm, hsz, e1, R.mulU_ok (by omega), R.ok_bind, SectorBitmap.insertRanges]
    generalize BlockTree.insert t _ _ _ = y
    cases y with
    | ok t => rw [R.ok_bind, R.addU_ok (by omega), R.ok_bind, R.addU_ok (by omega), R.ok_bind, SectorBitmap.insertRanges]
    | err => rfl
    | panic => rfl
  next hc =>
    unfold fillBlock
    rw [e1, R.mulU_ok (by omega), R.ok_bind]

/-- Reading a disk whose blocks are in the file as a whole never fails. -/
theorem stream_whole {parent : Option (List Byte)} (hw : WholeCode (diskOf m) file) (ht : TableInside (diskOf m) file) (hpl : PlacesBelow (diskOf m) file)
    (hU : file.length < 2 ^ 63)
    (hin : LayeredInside file (parent.getD []) (sourceCode (diskOf m) file) m.mediaSize) (ops : List StreamOp)
    (hf : m.mediaSize + seekBudget ops < 2 ^ 63) :
    ∃ tr, Stream.run (stream (imageOf m) file parent) ⟨treeOf m, 0⟩ ops = .ok tr ∧ tr.map Prod.fst = ops ∧
      Trace true (layered file (parent.getD []) (sourceCode (diskOf m) file) m.mediaSize) m.mediaSize 0 tr := by
  have hx := valid_cases hv
  have hsz : m.sectorSize * (m.blockSize / m.sectorSize) = m.blockSize := hx.2.2.2.2.1
  have hbs : m.blockSize ≤ 268435456 := hx.2.2.2.2.2.2.1
  have hen : m.tableSize / 8 < 2 ^ 29 := hv.entries
  have hp2 : 2 ≤ m.blockSize / m.sectorSize := hx.2.2.2.1
  have hss : 0 < m.sectorSize := by have : m.sectorSize = 512 ∨ m.sectorSize = 4096 := hv.sectorSize; omega
  have hmul : m.tableSize / 8 * m.blockSize ≤ 2 ^ 29 * 268435456 := Nat.mul_le_mul (by omega) hbs
  exact Lazy.whole_total (fill := fill (imageOf m) file) (B := m.blockSize) (N := m.tableSize / 8) (p := m.blockSize / m.sectorSize)
    (l := m.sectorSize) (by omega) hss hsz.symm (by omega) (by omega) hv.media (wholeRange m file)
    (fun b hb => wholeRange_right hv hl hw ht hpl hb) (fun b x t hb => fill_whole hv hl hw ht hpl hU hb) hin ops hf

end

end Keramics.Vhdx
