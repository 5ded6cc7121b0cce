import Verif.Props.NtfsSample

/-!
# A sample NTFS volume with an MFT described in two records

The volume is that of NtfsSample with other records 0 to 2: record 0 describes the first two clusters of the MFT and has an attribute list, record 1 describes
the other clusters.
-/

namespace Keramics.Props.NtfsExtendedSample
open Keramics.Spec Keramics.Spec.Ntfs Keramics.Spec.NtfsFs Keramics.Props.NtfsSample

def firstPiece : Piece := piece 0 1 6656 6656 6656 [.data 2 1]
def otherPiece : Piece := piece 2 12 0 0 0 [.data 11 3]

def listBytes : List Byte := listEntry 0x10 0 (1 * 2 ^ 48) ++ (listEntry 0x80 0 (1 * 2 ^ 48) ++ (listEntry 0x80 2 (1 + 1 * 2 ^ 48) ++ []))

def attrs0 : List Attribute := [standard 5 6, ⟨0x20, 0, none, .resident listBytes⟩, firstPiece.attribute 0x80 0 none]
def attrs1 : List Attribute := [otherPiece.attribute 0x80 0 none]

def mft : List Run := [.data 2 1, .data 11 3]

/-- Record 2 is marked as bad. -/
def bad : List Byte := pad 512 [0x42#8, 0x41#8, 0x41#8, 0x44#8, 48#8, 0#8, 2#8, 0#8]

def U : List Byte := boot ++ (protected1 (entry 0 1 0 attrs0) ++ (protected1 (entry 1 1 (1 * 2 ^ 48) attrs1) ++ (bad ++ NtfsSample.U.drop 2048)))

theorem length_U : U.length = 10752 := by decide +kernel
theorem size_U : clusterSize U = 512 := by decide +kernel
theorem entry_U : entrySize U = 512 := by decide +kernel

theorem boot_U : Boot U where
  length := by rw [length_U]; decide
  signature := by decide +kernel
  sector := Or.inr (Or.inl (by decide +kernel))
  sectors := Or.inl (by decide +kernel)
  cluster := ⟨9, by decide, by decide, size_U⟩
  entryByte := Or.inr (by decide +kernel)
  entry := by rw [entry_U]; decide
  indexByte := Or.inr (by decide +kernel)
  index := by decide +kernel
  total := by decide +kernel

theorem mftBytes_first : mftBytes U [.data 2 1] = bytesAt U 512 1024 := by
  simp [mftBytes, Run.bytes, size_U, bytesAt]

theorem mftBytes_U : mftBytes U mft = bytesAt U 512 6656 := by
  have h : ∀ (l : List Byte) (a b : Nat), bytesAt l 512 a ++ bytesAt l (512 + a) b = bytesAt l 512 (a + b) := by
    intro l a b
    simp only [bytesAt, List.take_add, List.drop_drop]
  have := h U 1024 5632
  simp only [mftBytes, mft, List.flatMap_cons, List.flatMap_nil, Run.bytes, size_U, List.append_nil]
  exact this

def entryB (n : Nat) (record : List Byte) : Bool :=
  record.length = 512 ∧ field record 6 2 = 2 ∧ field record 4 2 + 4 ≤ 510 ∧ bytesAt record (field record 4 2) 4 = [1#8, 0#8] ++ sectorEnds 1 record ∧
  bytesAt U (512 + n * 512) 512 = protected1 record ∧ (n + 1) * 512 ≤ 6656 ∧ bytesAt record 0 4 = [0x46#8, 0x49#8, 0x4c#8, 0x45#8] ∧
  field record 28 4 = record.length ∧ 48 ≤ field record 4 2 ∧ field record 4 2 + 2 * field record 6 2 ≤ field record 20 2 ∧ field record 20 2 ≤ record.length

theorem entryB_stored {n : Nat} {record : List Byte} (h : entryB n record = true) : Stored (bytesAt U (512 + n * 512) 512) record ∧ Entry record := by
  simp only [entryB, decide_eq_true_eq] at h
  obtain ⟨h1, h2, h3, h4, h5, _, h7, h8, h9, h10, h11⟩ := h
  exact ⟨⟨1, [1#8, 0#8], by decide, h1, h2, h3, rfl, h4, h5⟩, h7, h8, Or.inr h9, h10, h11⟩

theorem entryB_ok {n k : Nat} {record : List Byte} {runs : List Run} (hr : mftBytes U runs = bytesAt U 512 (k * 512)) (hk : k ≤ 13) (hn : n < k)
    (h : entryB n record = true) : EntryAt U runs n record := by
  obtain ⟨hs, he⟩ := entryB_stored h
  have hl : (bytesAt U 512 (k * 512)).length = k * 512 := by
    simp only [bytesAt, List.length_take, List.length_drop, length_U]
    omega
  refine ⟨by rw [hr, hl, entry_U]; omega, ?_, he⟩
  rw [hr, entry_U]
  have : bytesAt (bytesAt U 512 (k * 512)) (n * 512) 512 = bytesAt U (512 + n * 512) 512 := NtfsSample.bytesAt_bytesAt (by omega)
  rw [this]
  exact hs

theorem record1 : RecordAttributes U [.data 2 1] 1 attrs1 :=
  ⟨entry 1 1 (1 * 2 ^ 48) attrs1, entryB_ok (k := 2) mftBytes_first (by decide) (by decide) (by decide +kernel), attributesB_ok _ _ (by decide +kernel)⟩

theorem record3 : RecordAttributes U mft 3 attrs3 :=
  ⟨entry 3 3 0 attrs3, entryB_ok (k := 13) mftBytes_U (by decide) (by decide) (by decide +kernel), attributesB_ok _ _ (by decide +kernel)⟩

theorem record10 : RecordAttributes U mft 10 attrs10 :=
  ⟨entry 10 10 0 attrs10, entryB_ok (k := 13) mftBytes_U (by decide) (by decide) (by decide +kernel), attributesB_ok _ _ (by decide +kernel)⟩

theorem record11 : RecordAttributes U mft 11 attrs11 :=
  ⟨entry 11 4 0 attrs11, entryB_ok (k := 13) mftBytes_U (by decide) (by decide) (by decide +kernel), attributesB_ok _ _ (by decide +kernel)⟩

theorem list0 : ListAt listBytes [1 * 2 ^ 48, 1 * 2 ^ 48, 1 + 1 * 2 ^ 48] := by
  have h := ListAt.cons (entry := listEntry 0x10 0 (1 * 2 ^ 48)) (by decide +kernel) (by decide +kernel)
    (ListAt.cons (entry := listEntry 0x80 0 (1 * 2 ^ 48)) (by decide +kernel) (by decide +kernel)
      (ListAt.cons (entry := listEntry 0x80 2 (1 + 1 * 2 ^ 48)) (by decide +kernel) (by decide +kernel) ListAt.nil))
  have e : [field (listEntry 0x10 0 (1 * 2 ^ 48)) 16 8, field (listEntry 0x80 0 (1 * 2 ^ 48)) 16 8, field (listEntry 0x80 2 (1 + 1 * 2 ^ 48)) 16 8] =
      [1 * 2 ^ 48, 1 * 2 ^ 48, 1 + 1 * 2 ^ 48] := by decide +kernel
  rw [← e]
  exact h

theorem short_ok {as : List Attribute} (h : (as.all fun a => a.kind ≠ 0x20 || !inClusters a.value) = true) : ShortList U as := by
  intro a ha hk f l x s v u r hv
  have := List.all_eq_true.1 h a ha
  simp [hk, hv, inClusters] at this

theorem mft_U : Mft U mft where
  first := ⟨entry 0 1 0 attrs0, attrs0, firstPiece, by decide +kernel, by
      have := (entryB_stored (n := 0) (record := entry 0 1 0 attrs0) (by decide +kernel)).1
      have h : mftStart U = 1 := by decide +kernel
      rw [h, size_U, entry_U]
      exact this, (entryB_stored (n := 0) (record := entry 0 1 0 attrs0) (by decide +kernel)).2,
    attributesB_ok _ _ (by decide +kernel), soundB_ok (by decide +kernel),
    ⟨by decide +kernel, rfl, List.pairwise_singleton _ _, rfl, Or.inr rfl, trivial⟩,
    .list (others := [1]) (short_ok (by decide +kernel)) ⟨⟨0x20, 0, none, .resident listBytes⟩, by simp [attrs0], rfl, rfl, Or.inl rfl⟩ list0
      (List.pairwise_singleton _ _) (by intro m; simp; omega)
      (.data (p := otherPiece) record1 (soundB_ok (by decide +kernel)) (by decide +kernel) ⟨rfl, Or.inr rfl, trivial⟩ .nil),
    by rw [size_U]; rfl, by rw [entry_U]; decide⟩
  data := by
    intro r hr
    simp only [mft, List.mem_cons, List.not_mem_nil, or_false] at hr
    rcases hr with rfl | rfl
    · exact ⟨2, 1, rfl, by decide, by rw [size_U, length_U]; decide⟩
    · exact ⟨11, 3, rfl, by decide, by rw [size_U, length_U]; decide⟩
  whole := by
    intro r hr
    rw [size_U, entry_U]
    exact Nat.dvd_mul_left _ _

theorem inVolume_upper : InVolume U upperPiece [] := by
  refine ⟨?_, ?_, by rw [size_U]; decide, by decide, by rw [size_U]; decide, by decide, by decide⟩
  · intro q hq r hr
    obtain rfl := List.mem_singleton.1 hq
    simp only [upperPiece, piece, List.mem_cons, List.not_mem_nil, or_false] at hr
    rcases hr with rfl | rfl <;> decide
  · intro q hq count lcn hr
    obtain rfl := List.mem_singleton.1 hq
    simp only [upperPiece, piece, List.mem_cons, List.not_mem_nil, or_false, Run.data.injEq, reduceCtorEq] at hr
    rw [size_U, length_U]
    omega

@[irreducible] def tableOf (p : Piece) : List Byte := (clusterBytes U p []).take 131072

theorem tableOf_eq (p : Piece) : tableOf p = (clusterBytes U p []).take 131072 := by rw [tableOf]

def V : Volume := ⟨mft, tableOf upperPiece, some [0x41, 0x62], some (3, 1, 1)⟩

/-- The sample is a volume. -/
theorem volume_U : IsVolume U V where
  boot := boot_U
  mft := mft_U
  volume := ⟨attrs3, record3, soundB_ok (by decide +kernel), by decide +kernel, Or.inr ⟨0, units [0x41, 0x62], rfl, by unfold Resident; decide +kernel, rfl, by decide +kernel⟩,
    Or.inr ⟨0, zeros 8 ++ [3#8, 1#8, 1#8, 0#8], rfl, by unfold Resident; decide +kernel, by decide, by decide +kernel⟩⟩
  upper := ⟨attrs10, 0, upperPiece, [], record10, soundB_ok (by decide +kernel), by decide +kernel, rfl,
    ⟨by decide +kernel, rfl, List.pairwise_singleton _ _, rfl, Or.inr rfl, trivial⟩, inVolume_upper, by decide, by decide, tableOf_eq upperPiece⟩

theorem file11 : IsFile U mft 11 attrs11 where
  attributes := .single record11 (by decide +kernel)
  sound := soundB_ok (by decide +kernel)
  short := short_ok (by decide +kernel)

end Keramics.Props.NtfsExtendedSample
