import Verif.Lemmas.LazyBlocks
import Verif.Lemmas.SparseImage
import Verif.Model.Qcow
import Verif.Spec.Qcow

/-! # Lemmas: QCOW images -/

namespace Keramics.Qcow
open Keramics.Spec Keramics.Spec.Qcow Keramics.BlockTree Keramics.Lazy

theorem u64be_field {data : List Byte} {a : Nat} (h : a + 8 ≤ data.length) : u64be data a = .ok (fieldBe data a 8) := by
  unfold u64be; rw [slice_bytesAt h]; rfl

theorem get_field {data : List Byte} {a : Nat} (h : a < data.length) :
    R.get data a = .ok (data[a]) ∧ (data[a]).toNat = fieldBe data a 1 := by
  refine ⟨by unfold R.get; rw [List.getElem?_eq_getElem h], ?_⟩
  unfold fieldBe bytesAt
  rw [List.drop_eq_getElem_cons h, List.take_succ_cons, List.take_zero, beNat, List.reverse_singleton]
  simp only [leNat]
  omega

theorem fieldBe_head {file : List Byte} {a n : Nat} (h : a + n ≤ 112) : fieldBe (bytesAt file 0 112) a n = fieldBe file a n := by
  unfold fieldBe
  rw [bytesAt_bytesAt h, Nat.zero_add]

/-- The header, as the specification has it. -/
def headerOf (file : List Byte) : Header :=
  ⟨Spec.Qcow.version file, headerSize file, fieldBe file 8 8, fieldBe file 16 4, Spec.Qcow.clusterBits file, Spec.Qcow.mediaSize file,
    if Spec.Qcow.version file = 1 then fieldBe file 36 4 else fieldBe file 32 4,
    if Spec.Qcow.version file = 1 then 0 else fieldBe file 36 4, Spec.Qcow.l1Offset file, Spec.Qcow.l2Bits file⟩

/-- The part of the conditions that is about the header only. -/
structure HeaderOk (file : List Byte) : Prop where
  length : 112 ≤ file.length
  signature : bytesAt file 0 4 = [0x51#8, 0x46#8, 0x49#8, 0xfb#8]
  version : Spec.Qcow.version file = 1 ∨ Spec.Qcow.version file = 2 ∨ Spec.Qcow.version file = 3
  bits : Spec.Qcow.clusterBits file ≤ 63 ∧ (Spec.Qcow.version file ≠ 1 → 9 ≤ Spec.Qcow.clusterBits file)
  l2 : Spec.Qcow.l2Bits file ≤ 63
  features : Spec.Qcow.version file = 3 → fieldBe file 72 8 ≤ 1 ∧ fieldBe file 80 8 ≤ 1
  size : Spec.Qcow.version file = 3 → fieldBe file 100 4 = 104 ∨ fieldBe file 100 4 = 112

theorem readCommon_good {file : List Byte} {v hs : Nat} (hlen : 112 ≤ file.length) (hv : Spec.Qcow.version file = v) (h1 : v ≠ 1)
    (hh : headerSize file = hs) :
    R.Good (9 ≤ Spec.Qcow.clusterBits file ∧ Spec.Qcow.clusterBits file ≤ 63) (readCommon (bytesAt file 0 112) v hs)
      (fun h => h = headerOf file ∧ 9 ≤ Spec.Qcow.clusterBits file ∧ Spec.Qcow.clusterBits file ≤ 63) := by
  have hl : (bytesAt file 0 112).length = 112 := bytesAt_length (by omega)
  have hc : Spec.Qcow.clusterBits file = fieldBe file 20 4 := by unfold Spec.Qcow.clusterBits; rw [if_neg (by omega)]
  unfold readCommon
  rw [u64be_field (by omega), R.ok_bind, u32be_field (by omega), R.ok_bind, u32be_field (by omega), R.ok_bind,
    u64be_field (by omega), R.ok_bind, u32be_field (by omega), R.ok_bind, u32be_field (by omega), R.ok_bind,
    u64be_field (by omega), R.ok_bind]
  simp only [fieldBe_head (file := file) (show 8 + 8 ≤ 112 by omega), fieldBe_head (file := file) (show 16 + 4 ≤ 112 by omega),
    fieldBe_head (file := file) (show 20 + 4 ≤ 112 by omega), fieldBe_head (file := file) (show 24 + 8 ≤ 112 by omega),
    fieldBe_head (file := file) (show 32 + 4 ≤ 112 by omega), fieldBe_head (file := file) (show 36 + 4 ≤ 112 by omega),
    fieldBe_head (file := file) (show 40 + 8 ≤ 112 by omega)]
  refine R.Good.bind (R.Good.require (p := 8 < fieldBe file 20 4 ∧ fieldBe file 20 4 ≤ 63) fun h => by omega) fun _ hb => ?_
  rw [R.subU_ok (by omega), R.ok_bind]
  refine R.Good.ok ⟨?_, by omega, by omega⟩
  unfold headerOf Spec.Qcow.mediaSize Spec.Qcow.l1Offset Spec.Qcow.l2Bits
  rw [hc, hv, hh, if_neg h1, if_neg h1, if_neg h1]

theorem readVersion_good {file : List Byte} (hlen : 112 ≤ file.length) (hsig : bytesAt file 0 4 = [0x51#8, 0x46#8, 0x49#8, 0xfb#8]) :
    R.Good (HeaderOk file) (readVersion (bytesAt file 0 112) (Spec.Qcow.version file)) (fun h => h = headerOf file ∧ HeaderOk file) := by
  have hl : (bytesAt file 0 112).length = 112 := bytesAt_length (by omega)
  unfold readVersion
  by_cases h1 : Spec.Qcow.version file = 1
  · rw [if_pos h1]
    unfold readV1
    obtain ⟨g1, g2⟩ := get_field (data := bytesAt file 0 112) (a := 32) (by omega)
    obtain ⟨g3, g4⟩ := get_field (data := bytesAt file 0 112) (a := 33) (by omega)
    rw [u64be_field (by omega), R.ok_bind, u32be_field (by omega), R.ok_bind, u64be_field (by omega), R.ok_bind, g1, R.ok_bind, g3, R.ok_bind,
      u32be_field (by omega), R.ok_bind, u64be_field (by omega), R.ok_bind]
    simp only [g2, g4]
    simp only [fieldBe_head (file := file) (show 8 + 8 ≤ 112 by omega), fieldBe_head (file := file) (show 16 + 4 ≤ 112 by omega),
      fieldBe_head (file := file) (show 32 + 1 ≤ 112 by omega), fieldBe_head (file := file) (show 24 + 8 ≤ 112 by omega),
      fieldBe_head (file := file) (show 33 + 1 ≤ 112 by omega), fieldBe_head (file := file) (show 36 + 4 ≤ 112 by omega),
      fieldBe_head (file := file) (show 40 + 8 ≤ 112 by omega)]
    have hc : Spec.Qcow.clusterBits file = fieldBe file 32 1 := by unfold Spec.Qcow.clusterBits; rw [if_pos h1]
    have hc2 : Spec.Qcow.l2Bits file = fieldBe file 33 1 := by unfold Spec.Qcow.l2Bits; rw [if_pos h1]
    refine R.Good.bind (R.Good.require (p := fieldBe file 32 1 ≤ 63) fun h => by have := h.bits.1; omega) fun _ hb => ?_
    refine R.Good.bind (R.Good.require (p := fieldBe file 33 1 ≤ 63) fun h => by have := h.l2; omega) fun _ hb2 => ?_
    refine R.Good.ok ⟨?_, hlen, hsig, Or.inl h1, ⟨by omega, fun h => absurd h1 h⟩, by omega, fun h => by omega, fun h => by omega⟩
    unfold headerOf Spec.Qcow.mediaSize Spec.Qcow.l1Offset headerSize
    rw [hc, hc2, h1]
    rfl
  · rw [if_neg h1]
    by_cases h2 : Spec.Qcow.version file = 2
    · rw [if_pos h2]
      refine R.Good.mono (readCommon_good hlen h2 (by omega) (by unfold headerSize; rw [if_neg h1, if_pos h2])) (fun h => ⟨h.bits.2 h1, h.bits.1⟩) ?_
      rintro h ⟨rfl, a, b⟩
      refine ⟨rfl, hlen, hsig, Or.inr (Or.inl h2), ⟨b, fun _ => a⟩, ?_, fun h => by omega, fun h => by omega⟩
      unfold Spec.Qcow.l2Bits; rw [if_neg h1]; omega
    · rw [if_neg h2]
      by_cases h3 : Spec.Qcow.version file = 3
      · rw [if_pos h3]
        unfold readV3
        rw [u64be_field (by omega), R.ok_bind, fieldBe_head (by omega)]
        refine R.Good.bind (R.Good.require fun h => (h.features h3).1) fun _ f1 => ?_
        rw [u64be_field (by omega), R.ok_bind, fieldBe_head (by omega)]
        refine R.Good.bind (R.Good.require fun h => (h.features h3).2) fun _ f2 => ?_
        rw [u32be_field (by omega), R.ok_bind, fieldBe_head (by omega)]
        refine R.Good.bind (R.Good.mono (readCommon_good hlen h3 (by omega) (by unfold headerSize; rw [if_neg h1, if_neg h2]))
          (fun h => ⟨h.bits.2 h1, h.bits.1⟩) (fun _ h => h)) ?_
        rintro h ⟨rfl, a, b⟩
        refine R.Good.bind (R.Good.require fun h => h.size h3) fun _ f3 => ?_
        refine R.Good.ok ⟨rfl, hlen, hsig, Or.inr (Or.inr h3), ⟨b, fun _ => a⟩, ?_, fun _ => ⟨f1, f2⟩, fun _ => f3⟩
        unfold Spec.Qcow.l2Bits; rw [if_neg h1]; omega
      · rw [if_neg h3]
        refine R.Good.err fun h => ?_
        have := h.version; omega

theorem readHeader_good (file : List Byte) :
    R.Good (HeaderOk file) (readHeader file) (fun h => h = headerOf file ∧ HeaderOk file) := by
  unfold readHeader
  refine R.Good.bind ((readExactAt_good (U := file) (pos := 0) (n := 112)).mono (fun h => by have := h.length; omega) (fun _ h => h)) ?_
  rintro data ⟨rfl, hlen⟩
  have hlen' : 112 ≤ file.length := by have := hlen.2 (by omega); omega
  have hl : (bytesAt file 0 112).length = 112 := bytesAt_length (by omega)
  rw [slice_bytesAt' (n := 4) rfl (by omega), R.ok_bind, bytesAt_bytesAt (by omega)]
  refine R.Good.bind (R.Good.require fun h => h.signature) fun _ hsig => ?_
  rw [u32be_field (by omega), R.ok_bind, fieldBe_head (by omega)]
  exact readVersion_good hlen' hsig

/-- The image, as the specification has it. -/
def imageOf (file : List Byte) : Image :=
  ⟨2 ^ (if Spec.Qcow.version file = 1 then 63 else 62) - 1, 1 <<< (if Spec.Qcow.version file = 1 then 63 else 62),
    Spec.Qcow.clusterBits file + Spec.Qcow.l2Bits file, 2 ^ Spec.Qcow.l2Bits file - 1, 2 ^ Spec.Qcow.l2Bits file,
    Spec.Qcow.clusterBits file, cluster file, Spec.Qcow.l1Offset file, Spec.Qcow.l1Entries file, hasBacking file, Spec.Qcow.mediaSize file⟩

/-- The size of the tree. -/
def treeSize (file : List Byte) : Nat := BlockTree.divCeil (Spec.Qcow.mediaSize file) (cluster file) * cluster file

theorem treeSize_le {file : List Byte} : treeSize file ≤ Spec.Qcow.mediaSize file + cluster file - 1 := by
  unfold treeSize BlockTree.divCeil
  exact Nat.div_mul_le_self _ _

theorem media_le_treeSize {file : List Byte} : Spec.Qcow.mediaSize file ≤ treeSize file := by
  unfold treeSize BlockTree.divCeil
  have hc : 0 < cluster file := Nat.pow_pos (by omega)
  have h1 := Nat.div_add_mod (Spec.Qcow.mediaSize file + cluster file - 1) (cluster file)
  have h2 := Nat.mod_lt (Spec.Qcow.mediaSize file + cluster file - 1) hc
  rw [Nat.mul_comm] at h1
  omega

theorem openImage_good (file : List Byte) (hm : Spec.Qcow.mediaSize file < 2 ^ 63)
    (hc : Spec.Qcow.version file = 1 ∨ Spec.Qcow.clusterBits file ≠ 63) :
    R.Good (Supported file) (openImage file)
      (fun p => p = (imageOf file, BlockTree.new (treeSize file) (2 ^ Spec.Qcow.l2Bits file) (cluster file)) ∧ Supported file) := by
  unfold openImage
  refine R.Good.bind ((readHeader_good file).mono (fun h => ⟨h.length, h.signature, h.version, h.clusterBits, h.l2Bits, h.features, h.headerSize⟩) (fun _ h => h)) ?_
  rintro h ⟨rfl, ho⟩
  have hmask : masks (headerOf file) = .ok (2 ^ (if Spec.Qcow.version file = 1 then 63 else 62) - 1, 1 <<< (if Spec.Qcow.version file = 1 then 63 else 62)) := by
    have hb := ho.bits.1
    unfold masks headerOf
    simp only
    by_cases h1 : Spec.Qcow.version file = 1
    · simp only [if_pos h1]
      rw [R.subU_ok (by omega)]; rfl
    · simp only [if_neg h1]
      rw [R.subU_ok (by omega)]; rfl
  rw [hmask, R.ok_bind]
  simp only
  refine R.Good.bind (R.Good.require (p := Spec.Qcow.clusterBits file + Spec.Qcow.l2Bits file ≤ 63) fun h => h.bits) fun _ hbits => ?_
  have hcl : (1 : Nat) <<< (headerOf file).clusterBits = cluster file := by rw [Nat.shiftLeft_eq, Nat.one_mul]; rfl
  have hl2 : (1 : Nat) <<< (headerOf file).l2Bits = 2 ^ Spec.Qcow.l2Bits file := by rw [Nat.shiftLeft_eq, Nat.one_mul]; rfl
  rw [hcl, hl2]
  have hspan : cluster file * 2 ^ Spec.Qcow.l2Bits file = span file := by unfold cluster span; rw [Nat.pow_add]
  have hspan' : span file ≤ 2 ^ 63 := Nat.pow_le_pow_right (by omega) hbits
  have hcl63 : cluster file ≤ 2 ^ 63 := Nat.pow_le_pow_right (by omega) (by omega)
  have hcount : R.Good (Supported file) (l1Count (headerOf file) (cluster file) (2 ^ Spec.Qcow.l2Bits file))
      (fun n => n = Spec.Qcow.l1Entries file ∧ (Spec.Qcow.version file = 1 → Spec.Qcow.l1Entries file < 2 ^ 32)) := by
    unfold l1Count Spec.Qcow.l1Entries
    by_cases h1 : Spec.Qcow.version file = 1
    · rw [if_pos (show (headerOf file).version = 1 from h1)]
      simp only [if_pos h1]
      have hle : cluster file ≤ 18446744073709551615 / 2 ^ Spec.Qcow.l2Bits file := by
        rw [Nat.le_div_iff_mul_le (Nat.pow_pos (by omega)), hspan]; omega
      rw [R.require_true hle, R.ok_bind, R.mulU_ok (by omega), R.ok_bind, hspan]
      have e : BlockTree.divCeil (headerOf file).mediaSize (span file) = (Spec.Qcow.mediaSize file + span file - 1) / span file := rfl
      rw [e]
      refine R.Good.bind (R.Good.require fun h => ?_) fun _ hx => ?_
      · have := h.l1Entries h1
        unfold Spec.Qcow.l1Entries at this
        rw [if_pos h1] at this; omega
      · exact R.Good.ok ⟨rfl, fun _ => by omega⟩
    · rw [if_neg (show ¬ (headerOf file).version = 1 from h1)]
      simp only [if_neg h1]
      refine R.Good.ok ⟨?_, fun h => absurd h h1⟩
      unfold headerOf
      simp only [if_neg h1]
  refine R.Good.bind hcount ?_
  rintro _ ⟨rfl, hl1⟩
  have hts := treeSize_le (file := file)
  have hcp : 0 < cluster file := Nat.pow_pos (by omega)
  have hsz : BlockTree.divCeil (headerOf file).mediaSize (cluster file) * cluster file < 2 ^ 64 := by
    show treeSize file < 2 ^ 64; omega
  rw [R.mulU_ok hsz, R.ok_bind]
  have hname : R.Good (Supported file) (readName file (headerOf file)) (fun b => b = hasBacking file ∧ (hasBacking file = true → headerSize file ≤ fieldBe file 8 8 ∧ fieldBe file 16 4 ≤ 65536 ∧
    fieldBe file 8 8 + fieldBe file 16 4 ≤ file.length)) := by
    unfold readName
    by_cases hb : 0 < fieldBe file 8 8 ∧ 0 < fieldBe file 16 4
    · have hb' : hasBacking file = true := decide_eq_true hb
      rw [if_pos (show 0 < (headerOf file).nameOffset ∧ 0 < (headerOf file).nameSize from hb)]
      refine R.Good.bind (R.Good.require (p := headerSize file ≤ fieldBe file 8 8) fun h => (h.name hb').1) fun _ n1 => ?_
      refine R.Good.bind (R.Good.require (p := fieldBe file 16 4 ≤ 65536) fun h => (h.name hb').2.1) fun _ n2 => ?_
      refine R.Good.bind ((readExactAt_good (U := file) (pos := fieldBe file 8 8) (n := fieldBe file 16 4)).mono (fun h => (h.name hb').2.2) (fun _ h => h)) ?_
      rintro _ ⟨rfl, -, n3⟩
      exact R.Good.ok ⟨hb'.symm, fun _ => ⟨n1, n2, n3 hb.2⟩⟩
    · have hb' : hasBacking file = false := decide_eq_false hb
      rw [if_neg (show ¬ (0 < (headerOf file).nameOffset ∧ 0 < (headerOf file).nameSize) from hb)]
      exact R.Good.ok ⟨hb'.symm, fun h => by rw [hb'] at h; cases h⟩
  refine R.Good.bind hname ?_
  rintro _ ⟨rfl, hn⟩
  refine R.Good.bind (R.Good.require (p := (headerOf file).encryption = 0) fun h => h.encryption) fun _ he => ?_
  exact R.Good.ok ⟨rfl, ho.length, ho.signature, ho.version, ho.bits, ho.l2, hbits, ho.features, ho.size, hl1, hn, he⟩

/-! ## Filling the tree -/

theorem and_mask {e : Nat} (file : List Byte) (hc : Clean file e) : e &&& (imageOf file).offsetMask = place file e := by
  unfold imageOf place
  simp only
  rw [Nat.and_two_pow_sub_one_eq_mod]
  unfold Clean at hc
  split
  · rfl
  · next h =>
    have := hc h
    omega

theorem and_flag {e : Nat} (file : List Byte) (hc : Uncompressed file e) (he : e < 2 ^ 64) : e &&& (imageOf file).flagMask = 0 := by
  unfold imageOf
  simp only
  unfold Uncompressed at hc
  have key : ∀ k, e / 2 ^ k % 2 = 0 → e &&& 1 <<< k = 0 := by
    intro k hk
    rw [Nat.one_shiftLeft]
    apply Nat.eq_of_testBit_eq
    intro i
    rw [Nat.testBit_and, Nat.testBit_two_pow, Nat.zero_testBit]
    by_cases h : k = i
    · subst h
      have : e.testBit k = false := by
        rw [Nat.testBit_eq_decide_div_mod_eq, hk]; rfl
      rw [this]; rfl
    · rw [decide_eq_false h, Bool.and_false]
  split
  · next h => rw [if_pos h] at hc; exact key 63 (by omega)
  · next h => rw [if_neg h] at hc; exact key 62 hc

theorem readEntry_good {file : List Byte} {off n i : Nat} (hoff : off < 2 ^ 64 - 2 ^ 36) (hi : i < 2 ^ 32) :
    R.Good (i < n ∧ off + i * 8 + 8 ≤ file.length) (readEntry file off n i) (fun e => e = fieldBe file (off + i * 8) 8 ∧ i < n) := by
  unfold readEntry
  refine R.Good.bind (R.Good.require fun h => h.1) fun _ h1 => ?_
  rw [R.addU_ok (by omega), R.ok_bind]
  refine R.Good.bind ((readExactAt_good (U := file) (pos := off + i * 8) (n := 8)).mono (fun h => h.2) (fun _ h => h)) ?_
  rintro _ ⟨rfl, hl⟩
  rw [u64be_field (by omega)]
  refine R.Good.ok ⟨?_, h1⟩
  unfold fieldBe
  rw [bytesAt_bytesAt (by omega), Nat.add_zero]

theorem readEntry_ok {file : List Byte} {off n i e : Nat} (h : readEntry file off n i = .ok e) :
    e = fieldBe file (off + i * 8) 8 ∧ i < n := by
  unfold readEntry at h
  obtain ⟨_, h1, h⟩ := R.bind_eq_ok.1 h
  rw [R.require_eq_ok] at h1
  obtain ⟨p, h2, h⟩ := R.bind_eq_ok.1 h
  obtain ⟨_, rfl⟩ := addU_eq_ok.1 h2
  obtain ⟨d, h3, h⟩ := R.bind_eq_ok.1 h
  obtain ⟨h3, h4⟩ := readExactAt_eq_ok.1 h3
  rw [u64be_field (by omega), R.ok.injEq] at h
  refine ⟨?_, h1⟩
  rw [← h, h3]
  show fieldBe (bytesAt file (off + i * 8) 8) 0 8 = _
  unfold fieldBe
  rw [bytesAt_bytesAt (by omega), Nat.add_zero]

/-- What holds of the images the theorems are about. -/
structure ImageOk (file : List Byte) : Prop where
  supported : Supported file
  media : Spec.Qcow.mediaSize file < 2 ^ 63
  covered : Covered file

section
variable {file : List Byte} (hi : ImageOk file)
include hi

theorem cluster_pos : 0 < cluster file := Nat.pow_pos (by omega)

theorem span_pos : 0 < span file := Nat.pow_pos (by omega)

theorem cluster_span : cluster file * 2 ^ Spec.Qcow.l2Bits file = span file := by unfold cluster span; rw [Nat.pow_add]

theorem l1Index_lt {x : Nat} (hx : x < Spec.Qcow.mediaSize file) : x / span file < Spec.Qcow.l1Entries file := by
  rw [Nat.div_lt_iff_lt_mul (span_pos hi)]
  have := hi.covered
  unfold Covered at this
  omega

theorem l1Entries_lt : Spec.Qcow.l1Entries file < 2 ^ 32 := by
  by_cases h : Spec.Qcow.version file = 1
  · exact hi.supported.l1Entries h
  · unfold Spec.Qcow.l1Entries
    rw [if_neg h]
    exact SparseImage.fieldBe_lt _ _ _

/-- Two positions of the same cluster have the same entries. -/
theorem same_cluster {x y : Nat} (h : x / cluster file = y / cluster file) :
    x / span file = y / span file ∧ l1Entry file x = l1Entry file y ∧ l2Entry file x = l2Entry file y := by
  have h1 : x / span file = y / span file := by
    rw [← cluster_span hi, ← Nat.div_div_eq_div_mul, ← Nat.div_div_eq_div_mul, h]
  have h2 : l1Entry file x = l1Entry file y := by unfold l1Entry l1Place; rw [h1]
  exact ⟨h1, h2, by unfold l2Entry l2Place; rw [h, h2]⟩

theorem split_cluster (x : Nat) : x / span file * span file + x / cluster file % 2 ^ Spec.Qcow.l2Bits file * cluster file =
    x / cluster file * cluster file := by
  have h1 := Nat.div_add_mod (x / cluster file) (2 ^ Spec.Qcow.l2Bits file)
  rw [Nat.div_div_eq_div_mul, cluster_span hi] at h1
  calc _ = (2 ^ Spec.Qcow.l2Bits file * (x / span file) + x / cluster file % 2 ^ Spec.Qcow.l2Bits file) * cluster file := by
        rw [Nat.add_mul]
        congr 1
        rw [← cluster_span hi, Nat.mul_comm (2 ^ Spec.Qcow.l2Bits file), Nat.mul_assoc, Nat.mul_comm (cluster file)]
    _ = _ := by rw [h1]

omit hi in
theorem place_lt (e : Nat) : place file e < 2 ^ 63 := by
  unfold place
  split <;> omega

/-- The range of the cluster of a position. -/
def clusterRange (file : List Byte) (x : Nat) : Lazy.Range :=
  ⟨x / cluster file * cluster file, place file (l2Entry file x), cluster file,
    if place file (l2Entry file x) = 0 then if hasBacking file then .inParent else .sparse else .inFile⟩

/-- The range of a level 1 entry without a level 2 table. -/
def spanRange (file : List Byte) (x : Nat) : Lazy.Range := ⟨x / span file * span file, 0, span file, .sparse⟩

theorem rangeKind_eq {x : Nat} (hp : Plain file) (hx : x < Spec.Qcow.mediaSize file) (h0 : place file (l1Entry file x) ≠ 0) :
    rangeKind (imageOf file) (l2Entry file x) = (clusterRange file x).kind := by
  obtain ⟨h1, h2⟩ := (hp x hx).2 h0
  unfold rangeKind clusterRange
  rw [and_mask file h1, and_flag file h2 (SparseImage.fieldBe_lt _ _ 8), if_pos rfl]
  rfl

omit hi in
theorem l2Index (x : Nat) : (x >>> (imageOf file).clusterBits) &&& (imageOf file).l2Mask = x / cluster file % 2 ^ Spec.Qcow.l2Bits file := by
  unfold imageOf
  simp only
  rw [Nat.and_two_pow_sub_one_eq_mod, Nat.shiftRight_eq_div_pow]
  rfl

omit hi in
theorem l1Index (x : Nat) : x >>> (imageOf file).l1Shift = x / span file := by
  unfold imageOf
  simp only
  rw [Nat.shiftRight_eq_div_pow]
  rfl

omit hi in
theorem l1Media (n : Nat) : n <<< (imageOf file).l1Shift = n * span file := by
  unfold imageOf
  simp only
  rw [Nat.shiftLeft_eq]
  rfl

omit hi in
theorem one_shift : 1 <<< (imageOf file).l1Shift = span file := by
  rw [l1Media, Nat.one_mul]

theorem fill_sound {x b : Nat} {t t' : Lazy.Tree} (hp : Plain file) (hx : x < Spec.Qcow.mediaSize file) (h : fill (imageOf file) file b x t = .ok t') :
    (place file (l1Entry file x) = 0 ∧ insert t (x / span file * span file) (span file) (spanRange file x) = .ok t') ∨
    (place file (l1Entry file x) ≠ 0 ∧ insert t (x / cluster file * cluster file) (cluster file) (clusterRange file x) = .ok t') := by
  unfold fill at h
  simp only at h
  rw [l1Index, l1Media, one_shift] at h
  have hlt := l1Index_lt hi hx
  have hlt2 := l1Entries_lt hi
  rw [Nat.mod_eq_of_lt (by omega)] at h
  obtain ⟨e, h1, h⟩ := R.bind_eq_ok.1 h
  obtain ⟨rfl, -⟩ := readEntry_ok h1
  rw [show fieldBe file ((imageOf file).l1Offset + x / span file * 8) 8 = l1Entry file x from rfl, and_mask file (hp x hx).1] at h
  by_cases h0 : place file (l1Entry file x) = 0
  · rw [if_pos h0] at h
    exact Or.inl ⟨h0, h⟩
  · rw [if_neg h0] at h
    refine Or.inr ⟨h0, ?_⟩
    unfold fillCluster at h
    simp only at h
    rw [l2Index] at h
    obtain ⟨e2, h2, h⟩ := R.bind_eq_ok.1 h
    obtain ⟨rfl, hlt3⟩ := readEntry_ok h2
    have hmod : x / cluster file % 2 ^ Spec.Qcow.l2Bits file < 2 ^ Spec.Qcow.l2Bits file := Nat.mod_lt _ (Nat.pow_pos (by omega))
    have hl2 : (imageOf file).l2Entries = 2 ^ Spec.Qcow.l2Bits file := rfl
    rw [hl2] at hlt3
    have hsmall : Spec.Qcow.l2Bits file < 32 := by
      rcases Nat.lt_or_ge (Spec.Qcow.l2Bits file) 32 with h | h
      · exact h
      · have : 2 ^ 32 ∣ 2 ^ Spec.Qcow.l2Bits file := Nat.pow_dvd_pow 2 h
        rw [Nat.mod_eq_zero_of_dvd this] at hlt3
        omega
    have h32 : 2 ^ Spec.Qcow.l2Bits file < 2 ^ 32 := Nat.pow_lt_pow_right (by omega) hsmall
    rw [Nat.mod_eq_of_lt (show x / cluster file % 2 ^ Spec.Qcow.l2Bits file < 2 ^ 32 by omega)] at h
    rw [show fieldBe file (place file (l1Entry file x) + x / cluster file % 2 ^ Spec.Qcow.l2Bits file * 8) 8 = l2Entry file x from rfl,
      and_mask file ((hp x hx).2 h0).1, rangeKind_eq hi hp hx h0] at h
    obtain ⟨rel, h3, h⟩ := R.bind_eq_ok.1 h
    obtain ⟨-, rfl⟩ := mulU_eq_ok.1 h3
    obtain ⟨med, h4, h⟩ := R.bind_eq_ok.1 h
    obtain ⟨-, rfl⟩ := addU_eq_ok.1 h4
    rw [show (imageOf file).clusterSize = cluster file from rfl, split_cluster hi] at h
    exact h

theorem fill_total {x b : Nat} {t : Lazy.Tree} (hp : Plain file) (hx : x < Spec.Qcow.mediaSize file) (h0 : place file (l1Entry file x) ≠ 0)
    (ht : TablesInside file) (hU : file.length < 2 ^ 63) (h2 : Spec.Qcow.l2Bits file < 32) :
    fill (imageOf file) file b x t = insert t (x / cluster file * cluster file) (cluster file) (clusterRange file x) := by
  unfold fill
  simp only
  rw [l1Index, l1Media, one_shift]
  have hlt := l1Index_lt hi hx
  have hlt2 := l1Entries_lt hi
  rw [Nat.mod_eq_of_lt (by omega)]
  obtain ⟨t1, t2⟩ := ht x hx
  have t2 := t2 h0
  unfold l1Place at t1
  obtain ⟨e, h1, rfl, -⟩ := (readEntry_good (file := file) (off := (imageOf file).l1Offset) (n := (imageOf file).l1Entries) (i := x / span file)
    (by show Spec.Qcow.l1Offset file < _; omega) (by omega)).exists_ok ⟨hlt, t1⟩
  rw [h1, R.ok_bind, show fieldBe file ((imageOf file).l1Offset + x / span file * 8) 8 = l1Entry file x from rfl, and_mask file (hp x hx).1, if_neg h0]
  unfold fillCluster
  simp only
  rw [l2Index]
  have hmod : x / cluster file % 2 ^ Spec.Qcow.l2Bits file < 2 ^ Spec.Qcow.l2Bits file := Nat.mod_lt _ (Nat.pow_pos (by omega))
  have h32 : 2 ^ Spec.Qcow.l2Bits file < 2 ^ 32 := Nat.pow_lt_pow_right (by omega) h2
  have hl2 : (imageOf file).l2Entries = 2 ^ Spec.Qcow.l2Bits file := rfl
  rw [Nat.mod_eq_of_lt (show x / cluster file % 2 ^ Spec.Qcow.l2Bits file < 2 ^ 32 by omega), hl2, Nat.mod_eq_of_lt h32]
  unfold l2Place at t2
  have hpl := place_lt (file := file) (l1Entry file x)
  obtain ⟨e, h1, rfl, -⟩ := (readEntry_good (file := file) (off := place file (l1Entry file x)) (n := 2 ^ Spec.Qcow.l2Bits file)
    (i := x / cluster file % 2 ^ Spec.Qcow.l2Bits file) (by omega) (by omega)).exists_ok ⟨hmod, t2⟩
  rw [h1, R.ok_bind, show fieldBe file (place file (l1Entry file x) + x / cluster file % 2 ^ Spec.Qcow.l2Bits file * 8) 8 = l2Entry file x from rfl,
    and_mask file ((hp x hx).2 h0).1, rangeKind_eq hi hp hx h0, show (imageOf file).clusterSize = cluster file from rfl]
  have hs := split_cluster hi x
  have hle := Nat.div_mul_le_self x (cluster file)
  have hm := hi.media
  rw [R.mulU_ok (by omega), R.ok_bind, R.addU_ok (by omega), R.ok_bind, hs]
  rfl

theorem cluster_right {x : Nat} (hp : Plain file) (hx : x < Spec.Qcow.mediaSize file) (h0 : place file (l1Entry file x) ≠ 0) :
    Right (source file) (Spec.Qcow.mediaSize file) ⟨x / cluster file * cluster file, cluster file, clusterRange file x⟩ := by
  have hpl := place_lt (file := file) (l2Entry file x)
  have hcl : cluster file ≤ 2 ^ 63 := Nat.pow_le_pow_right (by omega) hi.supported.clusterBits.1
  refine ⟨rfl, rfl, ?_, fun _ => ?_, fun y hy hym => ?_⟩
  · unfold clusterRange
    simp only
    split
    · split <;> simp
    · simp
  · show place file (l2Entry file x) + cluster file < 2 ^ 64
    omega
  · have hyx := (has_iff (cluster_pos hi)).1 hy
    obtain ⟨-, e1, e2⟩ := same_cluster hi hyx
    obtain ⟨c1, c2⟩ := (hp x hx).2 h0
    have hz : ¬ (Spec.Qcow.version file = 3 ∧ l2Entry file y % 2 = 1) := by
      rintro ⟨h3, h⟩
      have := (c1 (by omega)).1
      rw [e2] at h; omega
    unfold source sourceOf
    rw [e1, if_neg h0, if_neg hz, e2]
    unfold clusterRange absent
    simp only
    have hm := Nat.div_add_mod y (cluster file)
    rw [Nat.mul_comm, hyx] at hm
    by_cases hq : place file (l2Entry file x) = 0
    · simp only [if_pos hq]
      cases hasBacking file <;> rfl
    · simp only [if_neg hq]
      congr 2
      omega

theorem span_right {x : Nat} (h0 : place file (l1Entry file x) = 0) (hb : hasBacking file = false) :
    Right (source file) (Spec.Qcow.mediaSize file) ⟨x / span file * span file, span file, spanRange file x⟩ := by
  refine ⟨rfl, rfl, by simp [spanRange], fun h => by simp [spanRange] at h, fun y hy hym => ?_⟩
  have hyx := (has_iff (span_pos hi)).1 hy
  have e1 : l1Entry file y = l1Entry file x := by unfold l1Entry l1Place; rw [hyx]
  unfold source sourceOf
  rw [e1, if_pos h0]
  unfold absent spanRange
  rw [hb]
  rfl

theorem insert_aligned {t t' : Lazy.Tree} {rs : List (Spec.BlockTree.Range Lazy.Range)} (hh : Holds t rs) (hpn : t.perNode = 2 ^ Spec.Qcow.l2Bits file)
    (hl : t.leafSize = cluster file) {off size : Nat} {v : Lazy.Range} (hs : size = cluster file ∨ size = span file) (hoff : size ∣ off)
    (h : insert t off size v = .ok t') :
    Holds t' (rs ++ [⟨off, size, v⟩]) ∧ t'.dataSize = t.dataSize ∧ t'.perNode = t.perNode ∧ t'.leafSize = t.leafSize := by
  have hc := cluster_pos hi
  have hsp := span_pos hi
  refine insert_sound hh (by rcases hs with h | h <;> omega) (fun k hk hle => ?_) h
  refine Nat.dvd_trans ?_ hoff
  rw [hl, hpn, ← Nat.pow_mul] at hle ⊢
  rcases hs with rfl | rfl
  · unfold cluster at hle ⊢
    rw [← Nat.pow_add] at hle ⊢
    exact Nat.pow_dvd_pow 2 ((Nat.pow_le_pow_iff_right (by omega)).1 hle)
  · unfold cluster span at hle ⊢
    rw [← Nat.pow_add] at hle ⊢
    exact Nat.pow_dvd_pow 2 ((Nat.pow_le_pow_iff_right (by omega)).1 hle)

/-- Every history that succeeds is right. -/
theorem stream_right {parent : Option (List Byte)} (hp : Plain file) (hfull : hasBacking file = true → Full file)
    (hin : LayeredInside file (parent.getD []) (source file) (Spec.Qcow.mediaSize file)) (ops : List StreamOp) (hty : ∀ op ∈ ops, typed op) (tr)
    (h : Stream.run (stream (imageOf file) file parent) ⟨BlockTree.new (treeSize file) (2 ^ Spec.Qcow.l2Bits file) (cluster file), 0⟩ ops = .ok tr) :
    Trace true (layered file (parent.getD []) (source file) (Spec.Qcow.mediaSize file)) (Spec.Qcow.mediaSize file) 0 tr := by
  refine Lazy.stream_sound (fill := fill (imageOf file) file) (blockSize := (imageOf file).clusterSize)
    (fun t => (t.perNode = 2 ^ Spec.Qcow.l2Bits file ∧ t.leafSize = cluster file) ∧ TreeRight (source file) (Spec.Qcow.mediaSize file) t)
    (fun t h => h.2) ?_ hin hi.media _ ?_ ops hty tr h
  · rintro b x t t' hx ⟨⟨g1, g2⟩, rs, hh, hd, hr⟩ hok
    rcases fill_sound hi hp hx hok with ⟨h0, hok⟩ | ⟨h0, hok⟩
    · have hb : hasBacking file = false := by
        cases hb : hasBacking file with
        | false => rfl
        | true => exact absurd h0 (hfull hb x hx)
      obtain ⟨h1, d1, d2, d3⟩ := insert_aligned hi hh g1 g2 (Or.inr rfl) (Nat.dvd_mul_left _ _) hok
      refine ⟨⟨by rw [d2, g1], by rw [d3, g2]⟩, _, h1, by omega, fun r hm => ?_⟩
      rcases List.mem_append.1 hm with hm | hm
      · exact hr r hm
      · rw [List.mem_singleton.1 hm]; exact span_right hi h0 hb
    · obtain ⟨h1, d1, d2, d3⟩ := insert_aligned hi hh g1 g2 (Or.inl rfl) (Nat.dvd_mul_left _ _) hok
      refine ⟨⟨by rw [d2, g1], by rw [d3, g2]⟩, _, h1, by omega, fun r hm => ?_⟩
      rcases List.mem_append.1 hm with hm | hm
      · exact hr r hm
      · rw [List.mem_singleton.1 hm]; exact cluster_right hi hp hx h0
  · exact ⟨⟨rfl, rfl⟩, [], new_holds _ _ _ (cluster_pos hi), media_le_treeSize, fun r hr => by cases hr⟩

/-- Reading an image with all its level 2 tables never fails. -/
theorem stream_full {parent : Option (List Byte)} (hp : Plain file) (hfull : Full file) (ht : TablesInside file) (hU : file.length < 2 ^ 63)
    (h2 : Spec.Qcow.l2Bits file < 32)
    (hin : LayeredInside file (parent.getD []) (source file) (Spec.Qcow.mediaSize file)) (ops : List StreamOp)
    (hf : Spec.Qcow.mediaSize file + seekBudget ops < 2 ^ 63) :
    ∃ tr, Stream.run (stream (imageOf file) file parent) ⟨BlockTree.new (treeSize file) (2 ^ Spec.Qcow.l2Bits file) (cluster file), 0⟩ ops = .ok tr ∧
      tr.map Prod.fst = ops ∧
      Trace true (layered file (parent.getD []) (source file) (Spec.Qcow.mediaSize file)) (Spec.Qcow.mediaSize file) 0 tr := by
  have hc := cluster_pos hi
  have hts := treeSize_le (file := file)
  have hbits := hi.supported.bits
  have hcl : cluster file ≤ 2 ^ 63 := Nat.pow_le_pow_right (by omega) hi.supported.clusterBits.1
  have hspan : span file ≤ 2 ^ 63 := Nat.pow_le_pow_right (by omega) hbits
  have hm := hi.media
  refine Lazy.stream_total (fill := fill (imageOf file) file) (blockSize := (imageOf file).clusterSize) hc
    (fun t => (t.perNode = 2 ^ Spec.Qcow.l2Bits file ∧ t.leafSize = cluster file ∧ t.dataSize = treeSize file ∧ LeafOk t) ∧
      ∃ rs, Holds t rs ∧ ∀ r ∈ rs, Right (source file) (Spec.Qcow.mediaSize file) r ∧ r.size = cluster file ∧ cluster file ∣ r.offset)
    ?_ ?_ hin _ ?_ ops hf
  · rintro t ⟨⟨-, -, hd, -⟩, rs, hh, hr⟩
    exact ⟨rs, hh, by rw [hd]; exact media_le_treeSize, hr⟩
  · rintro x t hx ⟨⟨g1, g2, g3, g4⟩, rs, hh, hr⟩ hnone
    have h0 := hfull x hx
    rw [fill_total hi hp hx h0 ht hU h2]
    have hfree : ∀ r ∈ rs, r.apart ⟨x / cluster file * cluster file, cluster file, clusterRange file x⟩ := by
      intro r hm y ⟨hy1, hy2⟩
      have hy := (has_iff hc).1 hy2
      obtain ⟨-, hrs, c, hro⟩ := hr r hm
      have hr' : r = ⟨c * cluster file, cluster file, r.value⟩ := by
        cases r; simp only at hrs hro ⊢; rw [hrs, hro, Nat.mul_comm]
      rw [hr'] at hy1
      have hyc := (has_iff hc).1 hy1
      have hxr : r.has x := by rw [hr']; exact (has_iff hc).2 (by omega)
      have hsome := get_range hh hm hxr (by rw [g3]; have := media_le_treeSize (file := file); omega)
      rw [hnone] at hsome
      cases hsome
    have hin' : x / cluster file * cluster file + cluster file ≤ t.dataSize := by
      rw [g3]
      unfold treeSize
      rw [← Nat.succ_mul]
      apply Nat.mul_le_mul_right
      apply Nat.succ_le_of_lt
      rw [Nat.div_lt_iff_lt_mul hc]
      exact Nat.lt_of_lt_of_le hx (media_le_treeSize (file := file))
    obtain ⟨t', e, h1, h2, d1, d2, d3⟩ := insert_leaf hh g4 (v := clusterRange file x) g2.symm hin' (Nat.dvd_mul_left _ _) hfree
    refine ⟨t', e, ⟨⟨by rw [d2, g1], by rw [d3, g2], by rw [d1, g3], h2⟩, _, h1, fun r hm => ?_⟩, ?_⟩
    · rcases List.mem_append.1 hm with hm | hm
      · exact hr r hm
      · rw [List.mem_singleton.1 hm]
        exact ⟨cluster_right hi hp hx h0, rfl, Nat.dvd_mul_left _ _⟩
    · rw [get_range h1 (r := ⟨x / cluster file * cluster file, cluster file, clusterRange file x⟩) (by simp) ((has_iff hc).2 rfl)
        (by rw [d1, g3]; have := media_le_treeSize (file := file); omega)]
      simp
  · refine ⟨⟨rfl, rfl, rfl, new_leafOk (Nat.pow_pos (by omega)) ?_ (by omega)⟩, [], new_holds _ _ _ hc, fun r hr => by cases hr⟩
    rw [Nat.mul_comm, cluster_span hi]
    omega

end

end Keramics.Qcow
