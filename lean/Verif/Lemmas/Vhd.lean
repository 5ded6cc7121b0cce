import Verif.Lemmas.SectorBitmap
import Verif.Lemmas.LazyWhole
import Verif.Lemmas.SparseImage
import Verif.Lemmas.Qcow
import Verif.Model.Vhd
import Verif.Spec.Vhd

/-! # Lemmas: VHD images -/

namespace Keramics.Vhd
open Keramics.Spec Keramics.Spec.Vhd Keramics.BlockTree Keramics.Lazy
open Keramics.Qcow (u64be_field)

theorem fieldBe_at {file : List Byte} {o a n m : Nat} (h : a + n ≤ m) : fieldBe (bytesAt file o m) a n = fieldBe file (o + a) n := by
  unfold fieldBe
  rw [bytesAt_bytesAt h]

def typeOf (file : List Byte) : DiskType := if diskType file = 2 then .fixed else if diskType file = 3 then .dynamic else .differential

theorem readFooter_good (file : List Byte) : R.Good (FooterOk file) (readFooter file)
    (fun f => f = ⟨nextOffset file, Spec.Vhd.mediaSize file, typeOf file⟩ ∧ FooterOk file) := by
  have e : file.length - 512 = footer file := rfl
  unfold readFooter
  rw [e]
  refine R.Good.bind ((readExactAt_good (U := file) (pos := footer file) (n := 512)).mono (fun h => by have := h.length; omega) (fun _ h => h)) ?_
  intro data hdata
  obtain ⟨hdata, hlen⟩ := hdata
  rw [hdata]
  have hlen' : 512 ≤ file.length := by have := hlen.2 (by omega); omega
  have hl : (bytesAt file (footer file) 512).length = 512 := bytesAt_length (by omega)
  rw [slice_bytesAt' (n := 8) rfl (by omega), R.ok_bind, bytesAt_bytesAt (by omega), Nat.add_zero]
  refine R.Good.bind (R.Good.require fun h => h.signature) fun _ hsig => ?_
  rw [u32be_field (by omega), R.ok_bind, fieldBe_at (by omega)]
  refine R.Good.bind (R.Good.require fun h => h.version) fun _ hv => ?_
  rw [u64be_field (by omega), R.ok_bind, u64be_field (by omega), R.ok_bind, u32be_field (by omega), R.ok_bind, fieldBe_at (by omega), fieldBe_at (by omega), fieldBe_at (by omega)]
  have ht : R.Good (FooterOk file) (diskTypeOf (diskType file)) (fun t => t = typeOf file ∧ (diskType file = 2 ∨ diskType file = 3 ∨ diskType file = 4)) := by
    unfold diskTypeOf typeOf
    by_cases h2 : diskType file = 2
    · rw [if_pos h2, if_pos h2]; exact R.Good.ok ⟨rfl, Or.inl h2⟩
    · rw [if_neg h2, if_neg h2]
      by_cases h3 : diskType file = 3
      · rw [if_pos h3, if_pos h3]; exact R.Good.ok ⟨rfl, Or.inr (Or.inl h3)⟩
      · rw [if_neg h3, if_neg h3]
        by_cases h4 : diskType file = 4
        · rw [if_pos h4]; exact R.Good.ok ⟨rfl, Or.inr (Or.inr h4)⟩
        · rw [if_neg h4]
          exact R.Good.err fun h => by have := h.diskType; omega
  refine R.Good.bind ht ?_
  rintro _ ⟨rfl, hd⟩
  have hfix : (typeOf file = .fixed) ↔ diskType file = 2 := by
    unfold typeOf
    by_cases h2 : diskType file = 2
    · simp [h2]
    · rw [if_neg h2]
      constructor
      · intro h; split at h <;> cases h
      · intro h; exact absurd h h2
  have hcond : (if typeOf file = .fixed then nextOffset file = 18446744073709551615 else 512 ≤ nextOffset file) ↔
      (if diskType file = 2 then nextOffset file = 2 ^ 64 - 1 else 512 ≤ nextOffset file) := by
    simp only [hfix]; rfl
  refine R.Good.bind (R.Good.require (p := if typeOf file = .fixed then nextOffset file = 18446744073709551615 else 512 ≤ nextOffset file)
    fun h => hcond.2 h.next) fun _ hn => ?_
  exact R.Good.ok ⟨rfl, hlen', hsig, hv, hd, hcond.1 hn⟩

structure Head (file : List Byte) : Prop where
  length : nextOffset file + 1024 ≤ file.length
  signature : bytesAt file (nextOffset file) 8 = [0x63#8, 0x78#8, 0x73#8, 0x70#8, 0x61#8, 0x72#8, 0x73#8, 0x65#8]
  version : fieldBe file (nextOffset file + 24) 4 = 65536
  next : fieldBe file (nextOffset file + 8) 8 = 2 ^ 64 - 1
  blockSize : Spec.Vhd.blockSize file ≠ 0

theorem readHeader_good (file : List Byte) : R.Good (Head file) (readHeader file (nextOffset file))
    (fun h => h = ⟨Spec.Vhd.tableOffset file, Spec.Vhd.blocks file, Spec.Vhd.blockSize file⟩ ∧ Head file) := by
  unfold readHeader
  refine R.Good.bind ((readExactAt_good (U := file) (pos := nextOffset file) (n := 1024)).mono (fun h => h.length) (fun _ h => h)) ?_
  rintro data ⟨rfl, hlen⟩
  have hlen' := hlen.2 (by omega)
  have hl : (bytesAt file (nextOffset file) 1024).length = 1024 := bytesAt_length (by omega)
  rw [slice_bytesAt' (n := 8) rfl (by omega), R.ok_bind, bytesAt_bytesAt (by omega)]
  refine R.Good.bind (R.Good.require fun h => h.signature) fun _ hsig => ?_
  rw [u32be_field (by omega), R.ok_bind, fieldBe_at (by omega)]
  refine R.Good.bind (R.Good.require fun h => h.version) fun _ hv => ?_
  rw [u64be_field (by omega), R.ok_bind, fieldBe_at (by omega)]
  refine R.Good.bind (R.Good.require fun h => h.next) fun _ hn => ?_
  rw [u64be_field (by omega), R.ok_bind, u32be_field (by omega), R.ok_bind, u32be_field (by omega), R.ok_bind, fieldBe_at (by omega), fieldBe_at (by omega), fieldBe_at (by omega)]
  refine R.Good.bind (R.Good.require (p := Spec.Vhd.blockSize file ≠ 0) fun h => h.blockSize) fun _ hb => ?_
  exact R.Good.ok ⟨rfl, hlen', hsig, hv, hn, hb⟩

def imageOf (file : List Byte) : Image :=
  ⟨typeOf file, Spec.Vhd.mediaSize file, Spec.Vhd.tableOffset file, Spec.Vhd.blocks file, Spec.Vhd.blockSize file, Spec.Vhd.bitmapSize file⟩

def treeOf (file : List Byte) : Lazy.Tree := BlockTree.new (Spec.Vhd.blocks file * Spec.Vhd.blockSize file) (Spec.Vhd.blockSize file / 512) 512

theorem openImage_good (file : List Byte) : R.Good (Supported file) (openImage file)
    (fun p => Supported file ∧ p.1.mediaSize = Spec.Vhd.mediaSize file ∧ (diskType file ≠ 2 → p = (imageOf file, treeOf file))) := by
  unfold openImage
  refine R.Good.bind ((readFooter_good file).mono (fun h => h.1) (fun _ h => h)) ?_
  rintro _ ⟨rfl, hf⟩
  simp only
  by_cases h2 : diskType file = 2
  · rw [if_pos (by unfold typeOf; rw [if_pos h2])]
    exact R.Good.ok ⟨⟨hf, fun h => absurd h2 h⟩, rfl, fun h => absurd h2 h⟩
  · rw [if_neg (by unfold typeOf; rw [if_neg h2]; split <;> simp)]
    unfold openBlocks
    refine R.Good.bind ((readHeader_good file).mono (fun h => ⟨(h.2 h2).length, (h.2 h2).signature, (h.2 h2).version, (h.2 h2).next, (h.2 h2).blockSize⟩) (fun _ h => h)) ?_
    rintro _ ⟨rfl, hh⟩
    simp only
    have hbs : Spec.Vhd.blockSize file < 256 ^ 4 := SparseImage.fieldBe_lt _ _ _
    have hbl : Spec.Vhd.blocks file < 256 ^ 4 := SparseImage.fieldBe_lt _ _ _
    have hmul : Spec.Vhd.blocks file * Spec.Vhd.blockSize file ≤ (256 ^ 4 - 1) * (256 ^ 4 - 1) := Nat.mul_le_mul (by omega) (by omega)
    rw [R.mulU_ok (by omega), R.ok_bind]
    refine R.Good.bind (R.Good.require fun h => (h.2 h2).blocks) fun _ hm => ?_
    have hbm : BlockTree.divCeil (Spec.Vhd.blockSize file / 512 / 8) 512 * 512 = Spec.Vhd.bitmapSize file := rfl
    have hlt : Spec.Vhd.bitmapSize file < 2 ^ 32 := by unfold Spec.Vhd.bitmapSize; omega
    rw [R.mulU_ok (by omega), R.ok_bind]
    exact R.Good.ok ⟨⟨hf, fun _ => ⟨hh.length, hh.signature, hh.version, hh.next, hh.blockSize, hm⟩⟩, rfl, fun _ => rfl⟩

/-! ## Filling the tree -/

theorem readEntry_ok {file : List Byte} {i e : Nat} (h : readEntry (imageOf file) file i = .ok e) :
    i < Spec.Vhd.blocks file ∧ e = entry file i := by
  unfold readEntry at h
  obtain ⟨_, h1, h⟩ := R.bind_eq_ok.1 h
  rw [R.require_eq_ok] at h1
  obtain ⟨p, h2, h⟩ := R.bind_eq_ok.1 h
  obtain ⟨_, rfl⟩ := addU_eq_ok.1 h2
  obtain ⟨d, h3, h⟩ := R.bind_eq_ok.1 h
  obtain ⟨h3, h4⟩ := readExactAt_eq_ok.1 h3
  rw [u32be_field (by omega), R.ok.injEq] at h
  refine ⟨h1, ?_⟩
  rw [← h, h3]
  show fieldBe (bytesAt file (Spec.Vhd.tableOffset file + i * 4) 4) 0 4 = _
  rw [fieldBe_at (by omega)]
  rfl

theorem readEntry_total {file : List Byte} {i : Nat} (hi : i < Spec.Vhd.blocks file) (ht : TablesInside file) (hU : file.length < 2 ^ 63) :
    readEntry (imageOf file) file i = .ok (entry file i) := by
  have h1 : (i + 1) * 4 ≤ Spec.Vhd.blocks file * 4 := Nat.mul_le_mul_right _ hi
  have h2 := ht.1
  unfold readEntry
  rw [R.require_true (show i < (imageOf file).blocks from hi), R.ok_bind]
  have e : (imageOf file).tableOffset = Spec.Vhd.tableOffset file := rfl
  rw [e, R.addU_ok (by omega), R.ok_bind, readExactAt_ok (by omega), R.ok_bind]
  show u32be (bytesAt file (Spec.Vhd.tableOffset file + i * 4) 4) 0 = _
  rw [u32be_field (by rw [bytesAt_length (by omega)]), fieldBe_at (by omega)]
  rfl

/-- The bits of a block, in the order of the code. -/
def blockBits (file : List Byte) (b : Nat) : List Bool := SectorBitmap.bits (bytesAt file (entry file b * 512) (Spec.Vhd.bitmapSize file))

theorem bytesAt_getD {file : List Byte} {o n k : Nat} (h : k < n) : (bytesAt file o n).getD k 0#8 = file.getD (o + k) 0#8 := by
  unfold bytesAt
  rw [List.getD_eq_getElem?_getD, List.getD_eq_getElem?_getD, List.getElem?_take_of_lt h, List.getElem?_drop]

section
variable {file : List Byte} (hs : Supported file) (h2 : diskType file ≠ 2) (hpad : NoPadding file)
include hs h2 hpad

theorem bitmap_exact : Spec.Vhd.bitmapSize file * 8 = Spec.Vhd.blockSize file / 512 ∧ 2 ≤ Spec.Vhd.blockSize file / 512 ∧
    512 * (Spec.Vhd.blockSize file / 512) = Spec.Vhd.blockSize file ∧ 0 < Spec.Vhd.blockSize file := by
  obtain ⟨c, hc⟩ := hpad
  have h0 := (hs.2 h2).blockSize
  have hc0 : 0 < c := by
    rcases Nat.eq_zero_or_pos c with h | h
    · rw [h] at hc; omega
    · exact h
  unfold Spec.Vhd.bitmapSize
  omega

theorem blockBits_length {b : Nat} (h : entry file b * 512 + Spec.Vhd.bitmapSize file ≤ file.length) :
    (blockBits file b).length = Spec.Vhd.blockSize file / 512 := by
  unfold blockBits
  rw [SectorBitmap.bits_length, bytesAt_length h, ← (bitmap_exact hs h2 hpad).1, Nat.mul_comm]

theorem blockBits_get {b i : Nat} (h : entry file b * 512 + Spec.Vhd.bitmapSize file ≤ file.length) (hi : i < Spec.Vhd.blockSize file / 512) :
    (blockBits file b)[i]? = some ((file.getD (entry file b * 512 + i / 8) 0#8).getLsbD (i % 8)) := by
  have hb := bitmap_exact hs h2 hpad
  unfold blockBits
  rw [SectorBitmap.bits_get (by rw [bytesAt_length h]; omega), bytesAt_getD (by omega)]

omit hs hpad in
theorem absent_unset : absent file = if unset (imageOf file) = .sparse then .zero else .parent := by
  unfold absent unset imageOf typeOf
  simp only [if_neg h2]
  by_cases h3 : diskType file = 3
  · simp [h3]
  · simp [h3]

omit hs h2 hpad in
theorem unset_cases : unset (imageOf file) = .sparse ∨ unset (imageOf file) = .inParent := by
  unfold unset
  split <;> simp

theorem head_bits {b : Nat} (h : entry file b * 512 + Spec.Vhd.bitmapSize file ≤ file.length) :
    (blockBits file b).head? = some ((file.getD (entry file b * 512) 0#8).getLsbD 0) := by
  have hx := bitmap_exact hs h2 hpad
  rw [List.head?_eq_getElem?, blockBits_get hs h2 hpad h (by omega)]
  simp

/-- The source of the positions of a block with a bitmap. -/
theorem sourceLow_block {b : Nat} (he : entry file b ≠ 0xffffffff) {y i : Nat} (h1 : b * Spec.Vhd.blockSize file + i * 512 ≤ y)
    (h3 : y < b * Spec.Vhd.blockSize file + i * 512 + 512) (hi : i < Spec.Vhd.blockSize file / 512) :
    sourceLow file y = if (file.getD (entry file b * 512 + i / 8) 0#8).getLsbD (i % 8) then .file (entry file b * 512 + Spec.Vhd.bitmapSize file + (y - b * Spec.Vhd.blockSize file)) else absent file := by
  have hx := bitmap_exact hs h2 hpad
  have hmul : (i + 1) * 512 ≤ Spec.Vhd.blockSize file / 512 * 512 := Nat.mul_le_mul_right _ hi
  have hd : y / Spec.Vhd.blockSize file = b := by rw [Nat.div_eq_iff hx.2.2.2]; constructor <;> omega
  have hm := Nat.div_add_mod y (Spec.Vhd.blockSize file)
  rw [hd, Nat.mul_comm] at hm
  have ho : y % Spec.Vhd.blockSize file = y - b * Spec.Vhd.blockSize file := by omega
  unfold sourceLow
  simp only
  rw [hd, ho, if_neg he, show (y - b * Spec.Vhd.blockSize file) / 512 = i by omega]

/-- What holds of the tree. -/
def TreeInv (file : List Byte) (t : Lazy.Tree) : Prop := (t.perNode = Spec.Vhd.blockSize file / 512 ∧ t.leafSize = 512 ∧
  t.dataSize = Spec.Vhd.blocks file * Spec.Vhd.blockSize file) ∧ TreeRight (sourceLow file) (Spec.Vhd.mediaSize file) t

theorem absent_low {b : Nat} (hb : entry file b = 0xffffffff) :
    Right (sourceLow file) (Spec.Vhd.mediaSize file) ⟨b * Spec.Vhd.blockSize file, Spec.Vhd.blockSize file,
      ⟨b * Spec.Vhd.blockSize file, 0, Spec.Vhd.blockSize file, unset (imageOf file)⟩⟩ := by
  have hx := bitmap_exact hs h2 hpad
  have hu := unset_cases (file := file)
  refine ⟨rfl, rfl, ?_, ?_, fun y hy _ => ?_⟩
  · simp only
    rcases hu with h | h <;> rw [h] <;> simp
  · simp only
    intro h
    rcases hu with h' | h' <;> rw [h'] at h <;> cases h
  · have hd := (has_iff hx.2.2.2).1 hy
    unfold sourceLow sourceOf
    simp only
    rw [hd, if_pos hb, absent_unset h2]
    rcases hu with h | h <;> rw [h] <;> simp

omit hs h2 hpad in
theorem insert_dataSize {unset : Kind} {rs : List (Nat × Bool)} {m d : Nat} {t t' : Lazy.Tree} (h : SectorBitmap.insertRanges unset rs m d t = .ok t') :
    t'.dataSize = t.dataSize := by
  induction rs generalizing m d t with
  | nil => rw [SectorBitmap.insertRanges, R.ok.injEq] at h; rw [h]
  | cons q rs ih =>
    obtain ⟨size, v⟩ := q
    rw [SectorBitmap.insertRanges] at h
    obtain ⟨t1, h1, h⟩ := R.bind_eq_ok.1 h
    obtain ⟨m1, _, h⟩ := R.bind_eq_ok.1 h
    obtain ⟨m2, _, h⟩ := R.bind_eq_ok.1 h
    rw [ih h]
    unfold BlockTree.insert at h1
    obtain ⟨_, _, h1⟩ := R.bind_eq_ok.1 h1
    obtain ⟨_, _, h1⟩ := R.bind_eq_ok.1 h1
    obtain ⟨_, _, h1⟩ := R.bind_eq_ok.1 h1
    obtain ⟨_, _, h1⟩ := R.bind_eq_ok.1 h1
    obtain ⟨_, _, h1⟩ := R.bind_eq_ok.1 h1
    obtain ⟨_, _, h1⟩ := R.bind_eq_ok.1 h1
    obtain ⟨_, _, h1⟩ := R.bind_eq_ok.1 h1
    rw [R.pure_eq, R.ok.injEq] at h1
    rw [← h1]

omit hs h2 hpad in
theorem insert_inside {t t' : Lazy.Tree} {off size : Nat} {v : Lazy.Range} (h : BlockTree.insert t off size v = .ok t') : off + size ≤ t.dataSize := by
  unfold BlockTree.insert at h
  obtain ⟨_, h1, h⟩ := R.bind_eq_ok.1 h
  obtain ⟨_, rfl⟩ := addU_eq_ok.1 h1
  obtain ⟨_, h2, h⟩ := R.bind_eq_ok.1 h
  exact R.require_eq_ok.1 h2

theorem fill_sound {b x : Nat} {t t' : Lazy.Tree} (hsym : FirstSame file) (ht : TreeInv file t) (h : fill (imageOf file) file b x t = .ok t') :
    TreeInv file t' := by
  have hx := bitmap_exact hs h2 hpad
  have hbl : Spec.Vhd.blocks file < 256 ^ 4 := SparseImage.fieldBe_lt _ _ _
  obtain ⟨⟨g1, g2, g3⟩, hr⟩ := ht
  unfold fill at h
  obtain ⟨e, he, h⟩ := R.bind_eq_ok.1 h
  obtain ⟨hlt, rfl⟩ := readEntry_ok he
  by_cases habs : entry file (b % 2 ^ 32) = 4294967295
  · rw [if_neg (by simpa using habs)] at h
    obtain ⟨media, hm, h⟩ := R.bind_eq_ok.1 h
    obtain ⟨-, rfl⟩ := mulU_eq_ok.1 hm
    have hbs : (imageOf file).blockSize = Spec.Vhd.blockSize file := rfl
    rw [hbs] at h
    have hin := insert_inside h
    rw [g3, ← Nat.succ_mul, Nat.mul_le_mul_right_iff hx.2.2.2] at hin
    rw [Nat.mod_eq_of_lt (by omega)] at habs hlt
    obtain ⟨rs, hh, hd, hrr⟩ := hr
    obtain ⟨h1, d1, d2, d3⟩ := insert_sound hh hx.2.2.2 (by
      rw [g1, g2]
      intro k hk hle
      refine Nat.dvd_trans ?_ (Nat.dvd_mul_left _ _)
      have hle' : (Spec.Vhd.blockSize file / 512) ^ k ≤ Spec.Vhd.blockSize file / 512 :=
        Nat.le_of_mul_le_mul_left (by rw [hx.2.2.1]; exact hle) (show 0 < 512 by omega)
      have hk2 : k ≤ 1 := by
        rcases Nat.lt_or_ge 1 k with h | h
        · have := Nat.pow_lt_pow_right (a := Spec.Vhd.blockSize file / 512) (by omega) h
          rw [Nat.pow_one] at this; omega
        · exact h
      rcases Nat.lt_or_ge k 1 with hk1 | hk1
      · rw [show k = 0 by omega, Nat.pow_zero]
        exact ⟨Spec.Vhd.blockSize file / 512, by omega⟩
      · rw [show k = 1 by omega, Nat.pow_one, hx.2.2.1]) h
    refine ⟨⟨by rw [d2, g1], by rw [d3, g2], by rw [d1, g3]⟩, _, h1, by omega, fun r hm => ?_⟩
    rcases List.mem_append.1 hm with hm | hm
    · exact hrr r hm
    · rw [List.mem_singleton.1 hm]; exact absent_low hs h2 hpad habs
  · rw [if_pos habs] at h
    unfold fillBitmap at h
    simp only at h
    obtain ⟨rs, hrs, h⟩ := R.bind_eq_ok.1 h
    unfold readBitmap at hrs
    obtain ⟨data, hdata, hrs⟩ := R.bind_eq_ok.1 hrs
    obtain ⟨rfl, hdl⟩ := readExactAt_eq_ok.1 hdata
    obtain ⟨first, hfirst, hrs⟩ := R.bind_eq_ok.1 hrs
    obtain ⟨media, hm, h⟩ := R.bind_eq_ok.1 h
    obtain ⟨-, rfl⟩ := mulU_eq_ok.1 hm
    have hbm : (imageOf file).bitmapSize = Spec.Vhd.bitmapSize file := rfl
    have hbs : (imageOf file).blockSize = Spec.Vhd.blockSize file := rfl
    rw [hbm] at hdl h hrs hfirst
    rw [hbs] at h
    have hlen : entry file (b % 2 ^ 32) * 512 + Spec.Vhd.bitmapSize file ≤ file.length := by
      rw [List.length_take, List.length_drop] at hdl; omega
    have hhead := head_bits hs h2 hpad hlen
    -- the first bit is the first in both orders
    have hff : first.getLsbD 7 = (file.getD (entry file (b % 2 ^ 32) * 512) 0#8).getLsbD 0 := by
      have hget : first = file.getD (entry file (b % 2 ^ 32) * 512) 0#8 := by
        have h0 := bytesAt_getD (file := file) (o := entry file (b % 2 ^ 32) * 512) (n := Spec.Vhd.bitmapSize file) (k := 0) (by omega)
        rw [Nat.add_zero] at h0
        rw [← h0]
        have hpos : 0 < (bytesAt file (entry file (b % 2 ^ 32) * 512) (Spec.Vhd.bitmapSize file)).length := by rw [bytesAt_length hlen]; omega
        have := (Qcow.get_field hpos).1
        unfold bytesAt at this
        rw [this, R.ok.injEq] at hfirst
        rw [← hfirst, List.getD_eq_getElem?_getD, List.getElem?_eq_getElem hpos]
        rfl
      rw [hget]
      exact hsym (b % 2 ^ 32) hlt habs
    rw [R.pure_eq, R.ok.injEq, hff] at hrs
    have hcov : SectorBitmap.Covers 512 rs (blockBits file (b % 2 ^ 32)) := by
      rw [← hrs]
      exact SectorBitmap.ranges_covers hhead
    have hblen := blockBits_length hs h2 hpad hlen
    -- the first range is inside, so the number of the block is
    have hb32 : b % 2 ^ 32 = b := by
      cases rs with
      | nil =>
        have : blockBits file (b % 2 ^ 32) = [] := hcov
        rw [this] at hblen
        simp at hblen; omega
      | cons q rs =>
        obtain ⟨size, v⟩ := q
        obtain ⟨n, rest, hn, rfl, -⟩ := hcov
        rw [SectorBitmap.insertRanges] at h
        obtain ⟨t1, h1, -⟩ := R.bind_eq_ok.1 h
        have hin := insert_inside h1
        rw [g3] at hin
        have : b < Spec.Vhd.blocks file := Nat.lt_of_mul_lt_mul_right (show b * Spec.Vhd.blockSize file < Spec.Vhd.blocks file * Spec.Vhd.blockSize file by omega)
        exact Nat.mod_eq_of_lt (by omega)
    rw [hb32] at habs hlt hlen hhead hcov hblen h
    have hen : entry file b < 256 ^ 4 := SparseImage.fieldBe_lt _ _ _
    have hbm32 : Spec.Vhd.bitmapSize file * 8 ≤ 256 ^ 4 := by
      have : Spec.Vhd.blockSize file < 256 ^ 4 := SparseImage.fieldBe_lt _ _ _
      omega
    have hbs32 : Spec.Vhd.blockSize file < 256 ^ 4 := SparseImage.fieldBe_lt _ _ _
    obtain ⟨k1, k2, k3⟩ := SectorBitmap.insertRanges_sound (source := sourceLow file) (total := Spec.Vhd.mediaSize file) (l := 512)
      (p := Spec.Vhd.blockSize file / 512) (base := b * Spec.Vhd.blockSize file) (dataBase := entry file b * 512 + Spec.Vhd.bitmapSize file)
      (unset := unset (imageOf file)) (by omega) hx.2.1 (by rw [hx.2.2.1]; exact Nat.dvd_mul_left _ _) unset_cases (all := blockBits file b) hblen
      (by
        intro y i hy1 hy2 _ v hv
        have hi : i < Spec.Vhd.blockSize file / 512 := by
          rw [← hblen]
          exact (List.getElem?_eq_some_iff.1 hv).1
        rw [blockBits_get hs h2 hpad hlen hi, Option.some.injEq] at hv
        rw [sourceLow_block hs h2 hpad habs hy1 hy2 hi, hv, absent_unset h2]) (by omega) rs 0 (by omega) hcov t t' g1 g2 hr
      (by rw [Nat.zero_mul, Nat.add_zero, Nat.add_zero]; exact h)
    exact ⟨⟨k1, k2, by rw [insert_dataSize h, g3]⟩, k3⟩

theorem new_inv : TreeInv file (treeOf file) :=
  ⟨⟨rfl, rfl, rfl⟩, [], new_holds _ _ _ (by omega), (hs.2 h2).blocks, fun r hr => by cases hr⟩

/-- Every history that succeeds is right, if the lowest bit is the first. -/
theorem stream_low {parent : Option (List Byte)} (hsym : FirstSame file) (hm : Spec.Vhd.mediaSize file < 2 ^ 63)
    (hin : LayeredInside file (parent.getD []) (sourceLow file) (Spec.Vhd.mediaSize file)) (ops : List StreamOp) (hty : ∀ op ∈ ops, typed op) (tr)
    (h : Stream.run (stream (imageOf file) file parent) ⟨treeOf file, 0⟩ ops = .ok tr) :
    Trace true (layered file (parent.getD []) (sourceLow file) (Spec.Vhd.mediaSize file)) (Spec.Vhd.mediaSize file) 0 tr :=
  Lazy.stream_sound (fill := fill (imageOf file) file) (blockSize := (imageOf file).blockSize) (TreeInv file) (fun t h => h.2)
    (fun _ _ _ _ _ ht h => fill_sound hs h2 hpad hsym ht h) hin hm _ (new_inv hs h2 hpad) ops hty tr h

theorem absent_right {b : Nat} (hb : entry file b = 0xffffffff) :
    Right (source file) (Spec.Vhd.mediaSize file) ⟨b * Spec.Vhd.blockSize file, Spec.Vhd.blockSize file,
      ⟨b * Spec.Vhd.blockSize file, 0, Spec.Vhd.blockSize file, unset (imageOf file)⟩⟩ := by
  have hx := bitmap_exact hs h2 hpad
  have hu := unset_cases (file := file)
  refine ⟨rfl, rfl, ?_, ?_, fun y hy _ => ?_⟩
  · simp only
    rcases hu with h | h <;> rw [h] <;> simp
  · simp only
    intro h
    rcases hu with h' | h' <;> rw [h'] at h <;> cases h
  · have hd := (has_iff hx.2.2.2).1 hy
    unfold source sourceOf
    simp only
    rw [hd, if_pos hb, absent_unset h2]
    rcases hu with h | h <;> rw [h] <;> simp

/-- Every history that succeeds is right. -/
theorem stream_right {parent : Option (List Byte)} (hsym : Symmetric file) (hm : Spec.Vhd.mediaSize file < 2 ^ 63)
    (hin : LayeredInside file (parent.getD []) (source file) (Spec.Vhd.mediaSize file)) (ops : List StreamOp) (hty : ∀ op ∈ ops, typed op) (tr)
    (h : Stream.run (stream (imageOf file) file parent) ⟨treeOf file, 0⟩ ops = .ok tr) :
    Trace true (layered file (parent.getD []) (source file) (Spec.Vhd.mediaSize file)) (Spec.Vhd.mediaSize file) 0 tr := by
  have hx := bitmap_exact hs h2 hpad
  have hfirst : FirstSame file := by
    intro b hb he
    have := hsym b hb he 0 (by omega) 7 (by omega)
    rw [Nat.add_zero] at this
    rw [this]
    simp [BitVec.getMsbD]
  have heq : ∀ x, x < Spec.Vhd.mediaSize file → source file x = sourceLow file x := by
    intro x hlt
    have hb : x / Spec.Vhd.blockSize file < Spec.Vhd.blocks file := by
      rw [Nat.div_lt_iff_lt_mul hx.2.2.2]
      exact Nat.lt_of_lt_of_le hlt (hs.2 h2).blocks
    unfold source sourceLow
    simp only
    by_cases he : entry file (x / Spec.Vhd.blockSize file) = 4294967295
    · rw [if_pos he, if_pos he]
    · rw [if_neg he, if_neg he]
      have hml := Nat.mod_lt x hx.2.2.2
      rw [hsym _ hb he _ (by omega) _ (by omega)]
      rfl
  have hlay : layered file (parent.getD []) (source file) (Spec.Vhd.mediaSize file) = layered file (parent.getD []) (sourceLow file) (Spec.Vhd.mediaSize file) := by
    unfold layered
    apply List.map_congr_left
    intro x hx
    rw [heq x (List.mem_range.1 hx)]
  rw [hlay]
  refine stream_low hs h2 hpad hfirst hm (fun x hx => ?_) ops hty tr h
  have := hin x hx
  rw [heq x hx] at this
  exact this

/-- The range of a block that is in the file as a whole or not at all. -/
def wholeRange (file : List Byte) (b : Nat) : Lazy.Range :=
  if entry file b = 4294967295 then ⟨b * Spec.Vhd.blockSize file, 0, Spec.Vhd.blockSize file, unset (imageOf file)⟩
  else if bit file b 0 then ⟨b * Spec.Vhd.blockSize file, entry file b * 512 + Spec.Vhd.bitmapSize file, Spec.Vhd.blockSize file, .inFile⟩
  else ⟨b * Spec.Vhd.blockSize file, 0, Spec.Vhd.blockSize file, unset (imageOf file)⟩

theorem byte_all {v : Bool} {x : Byte} (h : ∀ j, j < 8 → x.getMsbD j = v) : ∀ j, j < 8 → x.getLsbD j = v := by
  intro j hj
  have := h (7 - j) (by omega)
  rw [BitVec.getMsbD] at this
  rw [decide_eq_true (show 7 - j < 8 by omega), Bool.true_and, show 8 - 1 - (7 - j) = j by omega] at this
  exact this

theorem whole_bits {b : Nat} (hw : Whole file) (hb : b < Spec.Vhd.blocks file) (he : entry file b ≠ 4294967295)
    (h : entry file b * 512 + Spec.Vhd.bitmapSize file ≤ file.length) :
    (∀ k, k < Spec.Vhd.bitmapSize file → ∀ j, j < 8 → (file.getD (entry file b * 512 + k) 0#8).getLsbD j = bit file b 0) ∧
    blockBits file b = List.replicate (Spec.Vhd.blockSize file / 512) (bit file b 0) := by
  have hx := bitmap_exact hs h2 hpad
  have key : ∀ k, k < Spec.Vhd.bitmapSize file → ∀ j, j < 8 → (file.getD (entry file b * 512 + k) 0#8).getLsbD j = bit file b 0 := by
    intro k hk
    refine byte_all hs h2 hpad fun j hj => ?_
    have := hw b hb he (k * 8 + j) (by omega)
    unfold bit at this ⊢
    rw [show (k * 8 + j) / 8 = k by omega, show (k * 8 + j) % 8 = j by omega] at this
    exact this
  refine ⟨key, ?_⟩
  apply List.ext_getElem?
  intro i
  by_cases hi : i < Spec.Vhd.blockSize file / 512
  · rw [blockBits_get hs h2 hpad h hi, key _ (by omega) _ (by omega), List.getElem?_replicate_of_lt hi]
  · rw [List.getElem?_eq_none (by rw [blockBits_length hs h2 hpad h]; omega), List.getElem?_eq_none (by rw [List.length_replicate]; omega)]

theorem fill_whole {b x : Nat} {t : Lazy.Tree} (hw : Whole file) (ht : TablesInside file) (hU : file.length < 2 ^ 63) (hb : b < Spec.Vhd.blocks file) :
    fill (imageOf file) file b x t = BlockTree.insert t (b * Spec.Vhd.blockSize file) (Spec.Vhd.blockSize file) (wholeRange file b) := by
  have hx := bitmap_exact hs h2 hpad
  have hbl : Spec.Vhd.blocks file < 256 ^ 4 := SparseImage.fieldBe_lt _ _ _
  have hbs : Spec.Vhd.blockSize file < 256 ^ 4 := SparseImage.fieldBe_lt _ _ _
  have hmul : (b + 1) * Spec.Vhd.blockSize file ≤ (256 ^ 4 - 1) * (256 ^ 4 - 1) := Nat.mul_le_mul (by omega) (by omega)
  rw [Nat.succ_mul] at hmul
  have e1 : (imageOf file).blockSize = Spec.Vhd.blockSize file := rfl
  have e2 : (imageOf file).bitmapSize = Spec.Vhd.bitmapSize file := rfl
  unfold fill
  rw [Nat.mod_eq_of_lt (by omega), readEntry_total hb ht hU, R.ok_bind]
  by_cases he : entry file b = 4294967295
  · rw [if_neg (by simpa using he), e1, R.mulU_ok (by omega), R.ok_bind]
    unfold wholeRange
    rw [if_pos he]
  · have hlen := ht.2 b hb he
    obtain ⟨hk, hbits⟩ := whole_bits hs h2 hpad hw hb he hlen
    rw [if_pos he]
    unfold fillBitmap
    simp only
    have hrb : readBitmap (imageOf file) file (entry file b * 512) = .ok [(Spec.Vhd.blockSize file, bit file b 0)] := by
      unfold readBitmap
      rw [e2, readExactAt_ok hlen, R.ok_bind]
      have hpos : 0 < (bytesAt file (entry file b * 512) (Spec.Vhd.bitmapSize file)).length := by rw [bytesAt_length hlen]; omega
      have hg := (Qcow.get_field hpos).1
      have h0 : (bytesAt file (entry file b * 512) (Spec.Vhd.bitmapSize file))[0] = file.getD (entry file b * 512) 0#8 := by
        have := bytesAt_getD (file := file) (o := entry file b * 512) (n := Spec.Vhd.bitmapSize file) (k := 0) (by omega)
        rw [Nat.add_zero, List.getD_eq_getElem?_getD, List.getElem?_eq_getElem hpos] at this
        exact this
      unfold bytesAt at hg
      rw [hg, R.ok_bind, R.pure_eq]
      have h7 := hk 0 (by omega) 7 (by omega)
      rw [Nat.add_zero] at h7
      have h0' : ((List.drop (entry file b * 512) file).take (Spec.Vhd.bitmapSize file))[0] = file.getD (entry file b * 512) 0#8 := h0
      rw [h0', h7]
      have hb' : SectorBitmap.bits ((List.drop (entry file b * 512) file).take (Spec.Vhd.bitmapSize file)) =
        List.replicate (Spec.Vhd.blockSize file / 512) (bit file b 0) := hbits
      rw [hb', SectorBitmap.ranges_replicate, Nat.mul_comm, hx.2.2.1]
    rw [hrb, R.ok_bind, e1, e2, R.mulU_ok (by omega), R.ok_bind, SectorBitmap.insertRanges]
    have hr : wholeRange file b = if bit file b 0 then ⟨b * Spec.Vhd.blockSize file, entry file b * 512 + Spec.Vhd.bitmapSize file, Spec.Vhd.blockSize file, .inFile⟩
        else ⟨b * Spec.Vhd.blockSize file, 0, Spec.Vhd.blockSize file, unset (imageOf file)⟩ := by unfold wholeRange; rw [if_neg he]
    rw [hr]
    generalize BlockTree.insert t _ _ _ = y
    cases y with
    | ok t => rw [R.ok_bind, R.addU_ok (by omega), R.ok_bind, R.addU_ok (by omega), R.ok_bind, SectorBitmap.insertRanges]
    | err => rfl
    | panic => rfl

theorem wholeRange_right {b : Nat} (hw : Whole file) (hb : b < Spec.Vhd.blocks file) :
    Right (source file) (Spec.Vhd.mediaSize file) ⟨b * Spec.Vhd.blockSize file, Spec.Vhd.blockSize file, wholeRange file b⟩ := by
  by_cases he : entry file b = 4294967295
  · have := absent_right hs h2 hpad he
    unfold wholeRange
    rw [if_pos he]
    exact this
  · have hx := bitmap_exact hs h2 hpad
    have hbs : Spec.Vhd.blockSize file < 256 ^ 4 := SparseImage.fieldBe_lt _ _ _
    have hen : entry file b < 256 ^ 4 := SparseImage.fieldBe_lt _ _ _
    have hu := unset_cases (file := file)
    have hsrc : ∀ y, y / Spec.Vhd.blockSize file = b → source file y = if bit file b 0 then .file (entry file b * 512 + Spec.Vhd.bitmapSize file + y % Spec.Vhd.blockSize file) else absent file := by
      intro y hd
      have hlt := Nat.mod_lt y hx.2.2.2
      have hbit := hw b hb he (y % Spec.Vhd.blockSize file / 512) (by omega)
      unfold source
      simp only
      rw [hd, if_neg he, hbit]
    unfold wholeRange
    rw [if_neg he]
    by_cases hbit : bit file b 0 = true
    · rw [if_pos hbit]
      refine ⟨rfl, rfl, by simp, fun _ => by simp only; omega, fun y hy hym => ?_⟩
      have hd := (has_iff hx.2.2.2).1 hy
      have hm := Nat.div_add_mod y (Spec.Vhd.blockSize file)
      rw [hd, Nat.mul_comm] at hm
      rw [hsrc y hd, if_pos hbit]
      unfold sourceOf
      simp only
      congr 1
      omega
    · rw [if_neg hbit]
      refine ⟨rfl, rfl, ?_, ?_, fun y hy hym => ?_⟩
      · simp only
        rcases hu with h | h <;> rw [h] <;> simp
      · simp only
        intro h
        rcases hu with h' | h' <;> rw [h'] at h <;> cases h
      · rw [hsrc y ((has_iff hx.2.2.2).1 hy), if_neg hbit, absent_unset h2]
        unfold sourceOf
        simp only
        rcases hu with h | h <;> rw [h] <;> simp

/-- Reading a disk whose blocks are in the file as a whole never fails. -/
theorem stream_whole {parent : Option (List Byte)} (hw : Whole file) (ht : TablesInside file) (hU : file.length < 2 ^ 63)
    (hin : LayeredInside file (parent.getD []) (source file) (Spec.Vhd.mediaSize file)) (ops : List StreamOp)
    (hf : Spec.Vhd.mediaSize file + seekBudget ops < 2 ^ 63) :
    ∃ tr, Stream.run (stream (imageOf file) file parent) ⟨treeOf file, 0⟩ ops = .ok tr ∧ tr.map Prod.fst = ops ∧
      Trace true (layered file (parent.getD []) (source file) (Spec.Vhd.mediaSize file)) (Spec.Vhd.mediaSize file) 0 tr := by
  have hx := bitmap_exact hs h2 hpad
  have hbl : Spec.Vhd.blocks file < 256 ^ 4 := SparseImage.fieldBe_lt _ _ _
  have hbs : Spec.Vhd.blockSize file < 256 ^ 4 := SparseImage.fieldBe_lt _ _ _
  have hmul : Spec.Vhd.blocks file * Spec.Vhd.blockSize file ≤ (256 ^ 4 - 1) * (256 ^ 4 - 1) := Nat.mul_le_mul (by omega) (by omega)
  have hused : ∀ {b : Nat}, b * Spec.Vhd.blockSize file < Spec.Vhd.mediaSize file → b < Spec.Vhd.blocks file := fun h =>
    Nat.lt_of_mul_lt_mul_right (Nat.lt_of_lt_of_le h (hs.2 h2).blocks)
  exact Lazy.whole_total (fill := fill (imageOf file) file) (B := Spec.Vhd.blockSize file) (N := Spec.Vhd.blocks file) (p := Spec.Vhd.blockSize file / 512)
    (l := 512) (by omega) (by omega) (by omega) (by omega) (by omega) (hs.2 h2).blocks (wholeRange file)
    (fun b hb => wholeRange_right hs h2 hpad hw (hused hb)) (fun b x t hb => fill_whole hs h2 hpad hw ht hU (hused hb)) hin ops hf

end

/-! ## Fixed disks -/

theorem fixed_run {image : Image} {file : List Byte} (hle : image.mediaSize ≤ file.length) (ops : List StreamOp)
    (hf : image.mediaSize + seekBudget ops < 2 ^ 63) :
    ∃ tr, Stream.run (fixedStream image file) ⟨(), 0⟩ ops = .ok tr ∧ tr.map Prod.fst = ops ∧
      Trace true (file.take image.mediaSize) image.mediaSize 0 tr := by
  have hl : (file.take image.mediaSize).length = image.mediaSize := by rw [List.length_take]; omega
  have hro : ReaderOk (fixedStream image file) (fun _ => True) (file.take image.mediaSize) true := by
    intro s pos n out s' _ h1 h2 h
    have h1' : pos < image.mediaSize := h1
    have h2' : pos + n ≤ image.mediaSize := h2
    have e : out = (file.drop pos).take n := by
      simp only [fixedStream, R.ok.injEq, Prod.mk.injEq] at h
      rw [← h.1]; rfl
    have e' : ((file.take image.mediaSize).drop pos).take n = (file.drop pos).take n := by
      rw [List.drop_take, List.take_take]
      congr 1
      omega
    rw [e', e]
    refine ⟨trivial, List.prefix_refl _, fun hn hp hnil => ?_, fun _ => rfl⟩
    have := congrArg List.length hnil
    rw [List.length_take, List.length_drop, List.length_nil] at this
    omega
  exact stream_correct hro (fun _ _ _ _ _ _ => ⟨_, _, rfl⟩) (by rw [hl]; exact Nat.le_refl _) ops hf () trivial

end Keramics.Vhd
