import Verif.Lemmas.FatFileSystem

/-!
Property theorems: FAT volumes (C56) and their files (C57).
-/

namespace Keramics.Props
open Keramics Keramics.Spec Keramics.Spec.FatFs
open Keramics.FatFs (readBoot metadata openVolume byPath dataStream isDirectory volumeLabel)

namespace FatFsLemmas
open Keramics.FatFs Keramics.FatDir

theorem take_drop {U : List Byte} {a n : Nat} (h : a + n ≤ 512) : ((U.take 512).drop a).take n = (U.drop a).take n := by
  rw [List.drop_take, List.take_take]; congr 1; omega

theorem slice_field {U : List Byte} (hl : 512 ≤ U.length) {a b n : Nat} (hb : b = a + n) (h : a + n ≤ 512) : R.slice (U.take 512) a b = .ok ((U.drop a).take n) := by
  subst hb
  rw [R.slice_ok (by omega) (by rw [List.length_take]; omega), Nat.add_sub_cancel_left, take_drop h]

theorem u16_field {U : List Byte} (hl : 512 ≤ U.length) {a : Nat} (h : a + 2 ≤ 512) : u16le (U.take 512) a = .ok (field U a 2) := by
  unfold u16le; rw [slice_field hl rfl h]; rfl

theorem u32_field {U : List Byte} (hl : 512 ≤ U.length) {a : Nat} (h : a + 4 ≤ 512) : u32le (U.take 512) a = .ok (field U a 4) := by
  unfold u32le; rw [slice_field hl rfl h]; rfl

theorem get_field {U : List Byte} (hl : 512 ≤ U.length) {a : Nat} (h : a < 512) : ∃ b : Byte, R.get (U.take 512) a = .ok b ∧ b.toNat = field U a 1 := by
  have ha : a < U.length := by omega
  refine ⟨U[a], ?_, ?_⟩
  · unfold R.get
    rw [List.getElem?_take_of_lt h, List.getElem?_eq_getElem ha]
  · unfold field
    rw [List.drop_eq_getElem_cons ha, List.take_succ_cons, List.take_zero]
    simp [leNat]

/-- The extended boot record at an offset. -/
def extended (U : List Byte) (s : Nat) : Nat × List Byte :=
  if field U s 1 = 0x29 then (field U (s + 1) 4, trim ((U.drop (s + 5)).take 11)) else (0, [])

theorem readExtended_eq {U : List Byte} (hl : 512 ≤ U.length) {s : Nat} (h : s + 16 ≤ 512) : readExtended (U.take 512) s = .ok (extended U s) := by
  obtain ⟨b, hb, hv⟩ := get_field hl (show s < 512 by omega)
  unfold readExtended extended
  rw [hb, R.ok_bind]
  have e : (b = 0x29#8) ↔ field U s 1 = 0x29 := by
    rw [← hv]
    constructor
    · rintro rfl; rfl
    · intro h; apply BitVec.eq_of_toNat_eq; rw [h]; rfl
  by_cases hf : field U s 1 = 0x29
  · rw [if_pos (e.2 hf), if_pos hf, u32_field hl (by omega), R.ok_bind, slice_field hl (n := 11) (by omega) (by omega)]
    rfl
  · rw [if_neg (fun h => hf (e.1 h)), if_neg hf]; rfl

theorem readCommon_eq {U : List Byte} (hv : Valid U) :
    readCommon (U.take 512) = .ok ((params U).bytesPerSector, (params U).sectorsPerCluster, (params U).reserved, (params U).tables) := by
  have hl := hv.length
  obtain ⟨b, hb, hbv⟩ := get_field hl (show 13 < 512 by omega)
  obtain ⟨c, hc, hcv⟩ := get_field hl (show 16 < 512 by omega)
  unfold readCommon
  rw [R.require_true (by rw [List.length_take]; omega), R.ok_bind, slice_field hl (n := 2) rfl (by omega), R.ok_bind, R.require_true hv.signature, R.ok_bind,
    u16_field hl (by omega), R.ok_bind, R.require_true (show field U 11 2 ∈ _ from hv.bytes), R.ok_bind, hb, R.ok_bind, R.require_true (by rw [hbv]; exact hv.cluster), R.ok_bind,
    u16_field hl (by omega), R.ok_bind, hc, R.ok_bind]
  rw [hbv, hcv]; rfl

theorem leNat_zero_iff (l : List Byte) : leNat l = 0 ↔ ∀ b ∈ l, b = 0#8 := by
  induction l with
  | nil => simp [leNat]
  | cons x xs ih =>
    unfold leNat
    rw [List.forall_mem_cons, ← ih]
    constructor
    · intro h
      exact ⟨BitVec.eq_of_toNat_eq (by simp; omega), by omega⟩
    · rintro ⟨rfl, h⟩
      rw [h]; rfl

theorem zeros_iff {l : List Byte} {n : Nat} (hl : l.length = n) : l = List.replicate n 0#8 ↔ leNat l = 0 := by
  rw [leNat_zero_iff, List.eq_replicate_iff]
  simp [hl]

/-- Where the extended boot record is. -/
def at_ (U : List Byte) : Nat := if (params U).rootEntries ≠ 0 then 38 else 66

theorem readBoot_ok {U : List Byte} (hv : Valid U) :
    readBoot U = .ok ⟨(params U).bytesPerSector, (params U).sectorsPerCluster, (params U).reserved, (params U).tables, (params U).rootEntries,
      (params U).tableSectors, (params U).sectors, if (params U).rootEntries ≠ 0 then 0 else field U 44 4, (extended U (at_ U)).1, (extended U (at_ U)).2⟩ := by
  have hl := hv.length
  have hx : readExactAt U 0 512 = .ok (U.take 512) := by
    unfold readExactAt
    simp only [List.drop_zero]
    rw [if_pos (by rw [List.length_take]; omega)]
  unfold readBoot readBootData
  rw [hx, R.ok_bind, slice_field hl (n := 4) rfl (by omega), R.ok_bind, slice_field hl (n := 2) rfl (by omega), R.ok_bind]
  have h4 : ((U.drop 17).take 4 = [0#8, 0#8, 0#8, 0#8]) ↔ leNat ((U.drop 17).take 4) = 0 := zeros_iff (n := 4) (by rw [List.length_take, List.length_drop]; omega)
  have h2 : ((U.drop 22).take 2 = [0#8, 0#8]) ↔ field U 22 2 = 0 := zeros_iff (n := 2) (by rw [List.length_take, List.length_drop]; omega)
  have hsplit : leNat ((U.drop 17).take 4) = field U 17 2 + 65536 * field U 19 2 := by
    rw [leNat_split ((U.drop 17).take 4) 2 (by rw [List.length_take, List.length_drop]; omega), List.take_take, List.drop_take, List.drop_drop]
    rfl
  rw [hsplit] at h4
  rcases hv.kind with ⟨k1, k2, k3, k4⟩ | ⟨k1, k2, k3, k4, k5⟩
  · have k2' : 0 < field U 17 2 := k2
    rw [if_neg fun h => by have := h4.1 h.1; omega]
    unfold readBoot12 at_
    rw [readCommon_eq hv, R.ok_bind]
    simp only
    rw [u16_field hl (by omega), R.ok_bind, u16_field hl (by omega), R.ok_bind, u16_field hl (by omega), R.ok_bind, u32_field hl (by omega), R.ok_bind,
      readExtended_eq hl (by omega), R.ok_bind, if_pos (by omega), if_pos (by omega)]
    unfold params chooseSectors
    simp only [k1, ne_eq, not_false_eq_true, if_true]
    rcases hv.sectors with h | h <;> simp only [h] <;> simp
    · rintro h'; rw [h']
  · have k2' : field U 17 2 = 0 := k2
    rw [if_pos ⟨h4.2 (by omega), h2.2 k1⟩]
    unfold readBoot32 at_
    rw [readCommon_eq hv, R.ok_bind]
    simp only
    rw [u16_field hl (by omega), R.ok_bind, R.require_true k2', R.ok_bind, u16_field hl (by omega), R.ok_bind, R.require_true k3, R.ok_bind,
      u16_field hl (by omega), R.ok_bind, R.require_true k1, R.ok_bind, u32_field hl (by omega), R.ok_bind, u32_field hl (by omega), R.ok_bind,
      u32_field hl (by omega), R.ok_bind, R.require_true (by omega), R.ok_bind, readExtended_eq hl (by omega), R.ok_bind, if_neg (by omega), if_neg (by omega)]
    unfold params
    simp only [k1, k2', k3, ne_eq, not_true_eq_false, if_false]
    rfl

theorem field_lt {U : List Byte} {a n : Nat} : field U a n < 256 ^ n := by
  unfold field
  refine Nat.lt_of_lt_of_le (leNat_lt _) (Nat.pow_le_pow_right (by omega) ?_)
  rw [List.length_take]; omega

theorem bytes_le {n : Nat} (h : n ∈ [512, 1024, 2048, 4096]) : 512 ≤ n ∧ n ≤ 4096 ∧ 32 ∣ n := by
  simp only [List.mem_cons, List.not_mem_nil, or_false] at h
  rcases h with rfl | rfl | rfl | rfl <;> decide

theorem cluster_le {n : Nat} (h : n ∈ [1, 2, 4, 8, 16, 32, 64, 128]) : 1 ≤ n ∧ n ≤ 128 := by
  simp only [List.mem_cons, List.not_mem_nil, or_false] at h
  omega

/-- The format by the cluster of the root directory and the sectors after the tables. -/
def format (U : List Byte) : Fat.Format :=
  formatOf (if (params U).rootEntries ≠ 0 then 0 else field U 44 4) (params U).area

theorem params_lt (U : List Byte) : (params U).reserved < 2 ^ 16 ∧ (params U).tables < 2 ^ 8 ∧ (params U).rootEntries < 2 ^ 16 ∧
    (params U).tableSectors < 2 ^ 32 ∧ (params U).sectors < 2 ^ 32 := by
  refine ⟨field_lt (n := 2), field_lt (n := 1), field_lt (n := 2), ?_, ?_⟩
  · unfold params
    simp only
    split
    · exact Nat.lt_of_lt_of_le (field_lt (n := 2)) (by omega)
    · exact field_lt (n := 4)
  · unfold params
    simp only
    split
    · exact Nat.lt_of_lt_of_le (field_lt (n := 2)) (by omega)
    · exact field_lt (n := 4)

theorem rootSectors_eq {U : List Byte} (hv : Valid U) : (params U).rootSectors * (params U).bytesPerSector = (params U).rootEntries * 32 := by
  have hb := bytes_le hv.bytes
  have hd : (params U).bytesPerSector ∣ (params U).rootEntries * 32 := by
    rcases hv.kind with ⟨-, -, h, -⟩ | ⟨-, h, -⟩
    · exact h
    · rw [h]; exact ⟨0, by omega⟩
  obtain ⟨q, hq⟩ := hd
  unfold Params.rootSectors
  rw [hq, Nat.mul_comm, Nat.mul_comm _ q, show q * (params U).bytesPerSector + ((params U).bytesPerSector - 1) = (params U).bytesPerSector - 1 + q * (params U).bytesPerSector by omega,
    Nat.add_mul_div_right _ _ (by omega), Nat.div_eq_of_lt (by omega), Nat.zero_add]
  exact Nat.mul_comm _ _

theorem first_eq {U : List Byte} (hv : Valid U) : (params U).firstSector * (params U).bytesPerSector =
    (params U).rootSector * (params U).bytesPerSector + (params U).rootEntries * 32 := by
  unfold Params.firstSector
  rw [Nat.add_mul, rootSectors_eq hv]

theorem root_lt {U : List Byte} (hv : Valid U) : (params U).rootSector * (params U).bytesPerSector < 2 ^ 53 := by
  obtain ⟨p1, p2, p3, p4, p5⟩ := params_lt U
  have hb := bytes_le hv.bytes
  have h1 : (params U).tables * (params U).tableSectors ≤ 2 ^ 8 * 2 ^ 32 := Nat.mul_le_mul (by omega) (by omega)
  have h2 : (params U).rootSector ≤ 2 ^ 16 + 2 ^ 8 * 2 ^ 32 := by unfold Params.rootSector; omega
  have h3 := Nat.mul_le_mul h2 hb.2.1
  omega

theorem metadata_ok {U : List Byte} (hv : Valid U) : ∃ b, readBoot U = .ok b ∧
    metadata b = .ok ⟨⟨format U, (params U).layout.table, (params U).area, (params U).layout.first, (params U).layout.clusterSize⟩,
      if (params U).rootEntries ≠ 0 then (params U).rootSector * (params U).bytesPerSector else 0, (params U).rootEntries * 32,
      if (params U).rootEntries ≠ 0 then 0 else field U 44 4, (extended U (at_ U)).1,
      if (extended U (at_ U)).2 = [] then none else some (extended U (at_ U)).2, none⟩ := by
  refine ⟨_, readBoot_ok hv, ?_⟩
  obtain ⟨p1, p2, p3, p4, p5⟩ := params_lt U
  have hb := bytes_le hv.bytes
  have hc := cluster_le hv.cluster
  have hr := root_lt hv
  have hfit := hv.fits
  have hlay : (params U).layout = ⟨(params U).width, (params U).reserved * (params U).bytesPerSector, (params U).firstSector * (params U).bytesPerSector,
    (params U).sectorsPerCluster * (params U).bytesPerSector⟩ := rfl
  have harea : (params U).area = ((params U).sectors - (params U).reserved - (params U).tables * (params U).tableSectors) / (params U).sectorsPerCluster := by
    unfold Params.area Params.rootSector; rw [Nat.sub_add_eq]
  have hsec : (params U).rootSector ≤ (params U).sectors := by unfold Params.firstSector at hfit; omega
  have hrs : (params U).rootSector = (params U).reserved + (params U).tables * (params U).tableSectors := rfl
  have hal : (params U).area < 2 ^ 32 := Nat.lt_of_le_of_lt (Nat.div_le_self _ _) (by omega)
  have hoff : (params U).rootSector * (params U).bytesPerSector =
      (params U).reserved * (params U).bytesPerSector + (params U).tables * ((params U).tableSectors * (params U).bytesPerSector) := by
    rw [hrs, Nat.add_mul, Nat.mul_assoc]
  have h1 : (params U).tables * (params U).tableSectors ≤ 2 ^ 8 * 2 ^ 32 := Nat.mul_le_mul (by omega) (by omega)
  have h2 : (params U).tableSectors * (params U).bytesPerSector ≤ 2 ^ 32 * 4096 := Nat.mul_le_mul (by omega) (by omega)
  have h3 : (params U).bytesPerSector * (params U).sectorsPerCluster ≤ 4096 * 128 := Nat.mul_le_mul (by omega) (by omega)
  rw [hlay, first_eq hv]
  unfold metadata
  simp only
  rw [R.subU_ok (by omega), R.ok_bind, R.mulU_ok (by omega), R.ok_bind, R.subU_ok (by omega), R.ok_bind, R.check_true (by omega), R.ok_bind,
    R.mulU_ok (by omega), R.ok_bind, R.mulU_ok (by omega), R.ok_bind, R.mulU_ok (by omega), R.ok_bind, R.addU_ok (by omega), R.ok_bind,
    R.mulU_ok (by omega), R.ok_bind, ← hoff, ← harea]
  have hroot : rootArea ⟨(params U).bytesPerSector, (params U).sectorsPerCluster, (params U).reserved, (params U).tables, (params U).rootEntries,
      (params U).tableSectors, (params U).sectors, if (params U).rootEntries ≠ 0 then 0 else field U 44 4, (extended U (at_ U)).1, (extended U (at_ U)).2⟩
      ((params U).rootSector * (params U).bytesPerSector) =
      .ok (if (params U).rootEntries ≠ 0 then (params U).rootSector * (params U).bytesPerSector else 0, (params U).rootEntries * 32,
        (params U).rootSector * (params U).bytesPerSector + (params U).rootEntries * 32) := by
    unfold rootArea
    simp only
    rcases hv.kind with ⟨-, k, -⟩ | ⟨-, k, -, k', -⟩
    · have k : (params U).rootEntries ≠ 0 := by omega
      rw [if_pos (by rw [if_pos k]), R.mulU_ok (by omega), R.ok_bind, R.addU_ok (by omega), if_pos k]; rfl
    · rw [k]
      simp only [ne_eq, not_true_eq_false, if_false]
      rw [if_neg (by omega)]; rfl
  rw [hroot, R.ok_bind]
  simp only
  rw [Nat.mod_eq_of_lt hal, Nat.mul_comm (params U).bytesPerSector]
  rfl

theorem clusters_le (p : Params) : p.clusters ≤ p.area := by
  unfold Params.clusters Params.area Params.firstSector
  exact Nat.div_le_div_right (by omega)

theorem width_eq {U : List Byte} (hv : Valid U) (h1 : (params U).clusters < 4085 → (params U).area < 4085)
    (h2 : (params U).clusters < 65525 → (params U).area < 65525) : Fat.width (format U) = (params U).layout.width := by
  have hle := clusters_le (params U)
  show _ = (params U).width
  unfold format
  rcases hv.kind with ⟨-, k, -, k'⟩ | ⟨-, k, -, k', k''⟩
  · rw [if_pos (show (params U).rootEntries ≠ 0 by omega)]
    unfold formatOf
    unfold Params.width at k' ⊢
    by_cases c1 : (params U).clusters < 4085
    · have := h1 c1
      rw [if_pos c1, if_neg (by omega), if_neg (by omega)]; rfl
    · rw [if_neg c1] at k' ⊢
      by_cases c2 : (params U).clusters < 65525
      · have := h2 c2
        rw [if_pos c2, if_neg (by omega), if_pos (by omega)]; rfl
      · rw [if_neg c2] at k'; exact absurd rfl k'
  · rw [k'', if_neg (show ¬ (params U).rootEntries ≠ 0 by omega)]
    unfold formatOf
    rw [if_pos (Or.inl (by omega))]; rfl

theorem typed {U : List Byte} (hv : Valid U) (f : Fat.Format) :
    Fat.Typed ⟨f, (params U).layout.table, (params U).area, (params U).layout.first, (params U).layout.clusterSize⟩ (params U).layout.clusterSize := by
  obtain ⟨p1, p2, p3, p4, p5⟩ := params_lt U
  have hb := bytes_le hv.bytes
  have hc := cluster_le hv.cluster
  have hr := root_lt hv
  have h1 : 1 * 1 ≤ (params U).sectorsPerCluster * (params U).bytesPerSector := Nat.mul_le_mul (by omega) (by omega)
  have h2 : (params U).sectorsPerCluster * (params U).bytesPerSector ≤ 128 * 4096 := Nat.mul_le_mul (by omega) (by omega)
  have h3 : (params U).reserved * (params U).bytesPerSector ≤ 2 ^ 16 * 4096 := Nat.mul_le_mul (by omega) (by omega)
  have hal : (params U).area < 2 ^ 32 := Nat.lt_of_le_of_lt (Nat.div_le_self _ _) (by omega)
  have hf := first_eq hv
  refine ⟨?_, ?_, ?_, hal, ?_, ?_⟩
  · show 0 < (params U).sectorsPerCluster * (params U).bytesPerSector; omega
  · show (params U).sectorsPerCluster * (params U).bytesPerSector < _; omega
  · show (params U).reserved * (params U).bytesPerSector < _; omega
  · show (params U).firstSector * (params U).bytesPerSector < _; omega
  · show (params U).sectorsPerCluster * (params U).bytesPerSector < _; omega

theorem cluster_dvd {U : List Byte} (hv : Valid U) : 32 ∣ (params U).layout.clusterSize :=
  Nat.dvd_trans (bytes_le hv.bytes).2.2 (Nat.dvd_mul_left _ _)

end FatFsLemmas

/-- The numbers from which on the code takes a cluster for a mark. -/
def mark : Fat.Width → Nat
  | .w12 => 0xff0
  | .w16 => 0xfff0
  | .w32 => 0x0ffffff0

/-- What the code can reach: clusters with numbers below the number of clusters and below the first number that is never one, and files and directories that
start at the first 65536. -/
def reach (p : Params) : Limits :=
  ⟨min p.area (mark p.width), 65536⟩

namespace FatFsLemmas
open Keramics.FatFs Keramics.FatDir Keramics.Spec.FatDir

section
variable {U : List Byte} {t : Fat.Table}

/-- The table is that of the volume. -/
structure Fits (U : List Byte) (t : Fat.Table) : Prop where
  width : Fat.width t.format = (params U).layout.width
  offset : t.offset = (params U).layout.table
  entries : t.entries = (params U).area
  first : t.firstCluster = (params U).layout.first
  size : t.clusterSize = (params U).layout.clusterSize
  typed : Fat.Typed t t.clusterSize
  dvd : 32 ∣ t.clusterSize

theorem width_limit {f : Fat.Format} {x : Nat} : x < mark (Fat.width f) → x < match f with | .fat12 => 0xff0 | .fat16 => 0xfff0 | .fat32 => 0x0ffffff0 := by
  cases f <;> exact id

theorem fits_mem (hf : Fits U t) {chain : List Nat} (hi : InVolume U (params U).layout (reach (params U)) chain) {x : Nat} (hx : x ∈ chain) :
    x < t.entries ∧ t.offset + (Fat.width t.format).bits * (x + 1) / 8 + 2 ≤ U.length ∧ (t.format = .fat32 → Fat.stored .w32 (U.drop t.offset) x < 2 ^ 28) ∧
      (x < match t.format with | .fat12 => 0xff0 | .fat16 => 0xfff0 | .fat32 => 0x0ffffff0) ∧
      t.firstCluster + (x - 2) * t.clusterSize + t.clusterSize ≤ U.length := by
  obtain ⟨h1, h2, h3, h4⟩ := hi x hx
  have h1' : x < min (params U).area (mark (params U).layout.width) := h1
  rw [Nat.lt_min, ← hf.width] at h1'
  rw [hf.entries, hf.width, hf.offset, hf.first, hf.size]
  refine ⟨h1'.1, h2, fun h => h3 ?_, width_limit h1'.2, h4⟩
  rw [← hf.width, h]; rfl

theorem fits_readable (hf : Fits U t) {chain : List Nat} (hi : InVolume U (params U).layout (reach (params U)) chain) : ∀ x ∈ chain, Fat.Readable t U x := by
  intro x hx
  obtain ⟨h1, h2, h3, h4, h5⟩ := fits_mem hf hi hx
  refine ⟨h1, Fat.room h2, ?_, h4⟩
  unfold Fat.entry
  cases hft : t.format with
  | fat12 => rfl
  | fat16 => rfl
  | fat32 => exact (Nat.mod_eq_of_lt (h3 hft)).symm

theorem readClusters_ok {fold : Nat → Option Nat} (hfold : ∀ u, u < 128 → (fold u).getD u = if 97 ≤ u ∧ u ≤ 122 then u - 32 else u)
    (hf : Fits U t) (hU : U.length < 2 ^ 63) {c : Nat} {stored : List Stored} (hd : Directory U (params U).layout (reach (params U)) c stored) :
    ∃ s, readClusters fold t U c = .ok s ∧ DirOk fold stored s := by
  obtain ⟨chain, hch, hin, hl⟩ := hd
  have hr := fits_readable hf hin
  have hdata : ∀ x ∈ chain, t.firstCluster + (x - 2) * t.clusterSize + t.clusterSize ≤ U.length := fun x hx => (fits_mem hf hin hx).2.2.2.2
  rw [← hf.width, ← hf.offset] at hch
  rw [← hf.first, ← hf.size] at hl
  have hlen : chain.length ≤ t.entries := by
    have h1 : chain ⊆ List.range t.entries := fun x hx => List.mem_range.2 (hr x hx).entry
    have := (List.subperm_of_subset (Fat.chain_nodup (Fat.width_facts t.format) hch) h1).length_le
    rwa [List.length_range] at this
  have hbl : ∀ x ∈ chain, (Fat.cluster U t.firstCluster t.clusterSize x).length = t.clusterSize := fun x hx => (readExactAt_cluster (hdata x hx)).2
  have htl := hf.typed.entries_le
  have hcl := hf.typed.bs_lt
  have hmul : chain.length * t.clusterSize < 2 ^ 32 * 2 ^ 32 := Nat.mul_lt_mul'' (by omega) (by omega)
  obtain ⟨hclean, st, h1, h2⟩ := readE_lists hfold hl (by rw [flatMap_uniform_length hbl]; exact Nat.dvd_trans hf.dvd (Nat.dvd_mul_left _ _))
    (by rw [flatMap_uniform_length hbl]; omega)
  have hloop := clusterLoop_ok (fold := fold) hf.typed hU hf.dvd hch hr hdata hclean (t.entries + 1) [] FatDir.init (by omega) (by simp)
  rw [show erase FatDir.init = FatDir.init from rfl, h1] at hloop
  unfold readClusters
  cases hc : clusterLoop fold t U (t.entries + 1) c [] FatDir.init with
  | err => rw [hc] at hloop; cases hloop
  | panic => rw [hc] at hloop; cases hloop
  | ok s =>
    rw [hc, R.ok_bind] at hloop
    exact ⟨s, rfl, h2 s (R.ok.inj hloop)⟩

theorem lookup_ok {fold : Nat → Option Nat} {stored : List Stored} (hok : ∀ s ∈ stored, s.Ok) {name : List Nat} {f : File}
    (h : lookup fold stored name = some f) : f.2.Ok := by
  have hm := List.mem_of_find?_eq_some h
  rw [List.mem_reverse, List.mem_flatMap] at hm
  obtain ⟨s, hs, hfs⟩ := hm
  have := hok s hs
  match s, this, hfs with
  | .file none short, h, hfs =>
    simp only [Stored.files, List.mem_singleton] at hfs
    rw [hfs]; exact h.1
  | .file (some (n, c)) short, h, hfs =>
    simp only [Stored.files, List.mem_singleton] at hfs
    rw [hfs]; exact h.2.2.2
  | .deleted _, _, hfs => simp [Stored.files] at hfs
  | .dots _, _, hfs => simp [Stored.files] at hfs
  | .label _, _, hfs => simp [Stored.files] at hfs

/-- The entry is that of the file. -/
def Is (f : File) (e : Entry) : Prop := e.long = f.1 ∧ e.short = ⟨f.2.display, f.2.attributes, f.2.flags, f.2.cluster, f.2.size⟩

theorem directory_bits : ∀ a : Byte, a &&& 0x08#8 = 0#8 → (a &&& 0x58#8 = 0x10#8 ↔ a.getLsbD 4 = true ∧ a.getLsbD 6 = false) := by
  decide +kernel

theorem isDirectory_eq {f : File} {e : Entry} (hok : f.2.Ok) (h : Is f e) (s : Option State) : isDirectory ⟨some e, s⟩ = true ↔ IsDirectory f := by
  unfold FatFs.isDirectory IsDirectory
  simp only [decide_eq_true_eq]
  rw [h.2]
  exact directory_bits _ hok.2.2.2.2.2.2.2.2.2.2.1

theorem firstCluster_eq {l : Layout} {f : File} (hf : firstCluster l f < 65536) : firstCluster l f = f.2.cluster := by
  unfold firstCluster at hf ⊢
  split at hf
  · rw [if_pos (by assumption)]; omega
  · rw [if_neg (by assumption)]

/-- What a look-up gives. -/
def Result (x : R (Option FileEntry)) : Option File → Prop
  | none => x = .ok none
  | some f => ∃ e, x = .ok (some ⟨some e, none⟩) ∧ Is f e ∧ f.2.Ok

theorem walk_ok {fold : Nat → Option Nat} (hfold : ∀ u, u < 128 → (fold u).getD u = if 97 ≤ u ∧ u ≤ 122 then u - 32 else u) {v : Volume}
    (hf : Fits U v.table) (hU : U.length < 2 ^ 63) {stored : List Stored} {path : List (List Nat)} {r : Option File}
    (hp : Path fold U (params U).layout (reach (params U)) stored path r) :
    ∀ (e : FileEntry) (st : State), (∀ s ∈ stored, s.Ok) → subEntries fold U v e = .ok st → DirOk fold stored st → Result (walk fold U v e path) r := by
  have step : ∀ {stored : List Stored} {name : List Nat} {f : File} {e : FileEntry} {st : State} {rest : List (List Nat)},
      subEntries fold U v e = .ok st → DirOk fold stored st → lookup fold stored name = some f →
      ∃ e', walk fold U v e (name :: rest) = walk fold U v ⟨some e', none⟩ rest ∧ Is f e' := by
    intro stored name f e st rest hs hd hl
    have := hd.finds name
    rw [hl] at this
    obtain ⟨e', h1, h2⟩ := this
    refine ⟨e', ?_, h2⟩
    conv_lhs => unfold walk
    unfold subEntry
    rw [hs, R.ok_bind, h1]; rfl
  have miss : ∀ {stored : List Stored} {name : List Nat} {e : FileEntry} {st : State} {rest : List (List Nat)},
      subEntries fold U v e = .ok st → DirOk fold stored st → lookup fold stored name = none → walk fold U v e (name :: rest) = .ok none := by
    intro stored name e st rest hs hd hl
    have := hd.finds name
    rw [hl] at this
    unfold walk subEntry
    rw [hs, R.ok_bind, this]; rfl
  induction hp with
  | @here stored name f hl =>
    intro e st hok hs hd
    obtain ⟨e', h1, h2⟩ := step (rest := []) hs hd hl
    exact ⟨e', by rw [h1]; rfl, h2, lookup_ok hok hl⟩
  | @missing stored name rest hl =>
    intro e st hok hs hd
    exact miss hs hd hl
  | @file stored name rest f hl hnd hne =>
    intro e st hok hs hd
    obtain ⟨e', h1, h2⟩ := step (rest := rest) hs hd hl
    show _ = _
    rw [h1]
    cases rest with
    | nil => exact absurd rfl hne
    | cons n rest =>
      have hnot : ¬ isDirectory ⟨some e', none⟩ = true := fun h => hnd ((isDirectory_eq (lookup_ok hok hl) h2 none).1 h)
      unfold walk subEntry subEntries
      simp only
      rw [if_neg hnot]; rfl
  | @directory stored name rest f stored' r hl hdir hst hsub hne _ ih =>
    intro e st hok hs hd
    obtain ⟨e', h1, h2⟩ := step (rest := rest) hs hd hl
    rw [h1]
    obtain ⟨s, hs1, hs2⟩ := readClusters_ok hfold hf hU hsub
    refine ih ⟨some e', none⟩ s hsub.choose_spec.2.2.1 ?_ hs2
    unfold subEntries
    simp only
    rw [if_pos ((isDirectory_eq (lookup_ok hok hl) h2 none).2 hdir)]
    unfold readSub
    simp only
    rw [h2.2]
    rw [firstCluster_eq hst] at hs1
    exact hs1

theorem readRoot_ok {fold : Nat → Option Nat} (hfold : ∀ u, u < 128 → (fold u).getD u = if 97 ≤ u ∧ u ≤ 122 then u - 32 else u) {v : Volume}
    (hv : Valid U) (hf : Fits U v.table) (hU : U.length < 2 ^ 63) (h1 : v.rootSize = (params U).rootEntries * 32)
    (h2 : (params U).rootEntries ≠ 0 → v.rootOffset = (params U).rootSector * (params U).bytesPerSector) (h3 : (params U).rootEntries = 0 → v.rootCluster = field U 44 4)
    {stored : List Stored} (hr : Root U (reach (params U)) stored) : ∃ st, readRoot fold U v = .ok st ∧ DirOk fold stored st ∧ ∀ s ∈ stored, s.Ok := by
  unfold Root at hr
  unfold readRoot
  by_cases h0 : (params U).rootEntries ≠ 0
  · rw [if_pos h0] at hr
    obtain ⟨hlen, hl⟩ := hr
    rw [first_eq hv] at hlen
    have hp := (params_lt U).2.2.1
    rw [if_pos (by omega)]
    unfold readRegion
    rw [R.require_true (by omega), R.ok_bind, h1, h2 h0]
    have hdl : ((U.drop ((params U).rootSector * (params U).bytesPerSector)).take ((params U).rootEntries * 32)).length = (params U).rootEntries * 32 := by
      rw [List.length_take, List.length_drop]; omega
    have hx : readExactAt U ((params U).rootSector * (params U).bytesPerSector) ((params U).rootEntries * 32) =
        .ok ((U.drop ((params U).rootSector * (params U).bytesPerSector)).take ((params U).rootEntries * 32)) := by
      unfold readExactAt
      simp only
      rw [if_pos hdl]
    rw [hx, R.ok_bind]
    obtain ⟨-, st, e1, e2⟩ := readE_lists hfold hl (by rw [hdl]; exact Nat.dvd_mul_left _ _) (by rw [hdl]; omega)
    have he := readData_erase fold ((U.drop ((params U).rootSector * (params U).bytesPerSector)).take ((params U).rootEntries * 32))
      ((params U).rootSector * (params U).bytesPerSector) FatDir.init (by rw [hdl]; omega)
    rw [show erase FatDir.init = FatDir.init from rfl, e1] at he
    cases hc : readData fold ((params U).rootSector * (params U).bytesPerSector) FatDir.init
      ((U.drop ((params U).rootSector * (params U).bytesPerSector)).take ((params U).rootEntries * 32)) with
    | err => rw [hc] at he; cases he
    | panic => rw [hc] at he; cases he
    | ok s =>
      rw [hc, R.ok_bind] at he
      exact ⟨s, rfl, e2 s (R.ok.inj he), hl.1⟩
  · rw [if_neg h0] at hr
    have h0 : (params U).rootEntries = 0 := by omega
    rw [if_neg (by omega), h3 h0]
    obtain ⟨s, s1, s2⟩ := readClusters_ok hfold hf hU hr
    exact ⟨s, s1, s2, hr.choose_spec.2.2.1⟩

theorem empty_stream (U : List Byte) (tree : BlockTree.Tree Fat.Range) (ops : List StreamOp) (hb : 0 + seekBudget ops < 2 ^ 63) :
    ∃ tr, Stream.run (Fat.stream U tree 0) ⟨(), 0⟩ ops = .ok tr ∧ tr.map Prod.fst = ops ∧ Trace true [] 0 0 tr := by
  refine Blocks.blocks_correct (piece := Fat.piece U tree) (Inv := fun _ => True) (C := []) ?_ ?_ ops hb () trivial
  · intro s pos n out s' _ hn hp
    simp at hp; omega
  · intro s pos n _ hn hp
    simp at hp; omega

end

end FatFsLemmas

open FatFsLemmas

/-- C56: on every volume the width of the table, its place, the place of the first cluster, the size of clusters, the root directory and the serial number
are those of the boot sector. Missing for the full property: volumes whose number of clusters is below 4085 or 65525 only because of the sectors of the root
directory (`C56_violated_format`). -/
theorem C56_layout_partial (U : List Byte) (hv : Valid U) (h1 : (params U).clusters < 4085 → (params U).area < 4085)
    (h2 : (params U).clusters < 65525 → (params U).area < 65525) :
    ∃ b v, readBoot U = .ok b ∧ metadata b = .ok v ∧
      (⟨Fat.width v.table.format, v.table.offset, v.table.firstCluster, v.table.clusterSize⟩ : Layout) = (params U).layout ∧
      ((params U).rootEntries ≠ 0 → v.rootOffset = (params U).rootSector * (params U).bytesPerSector ∧ v.rootSize = (params U).rootEntries * 32 ∧
        (field U 38 1 = 0x29 → v.serial = field U 39 4)) ∧
      ((params U).rootEntries = 0 → v.rootSize = 0 ∧ v.rootCluster = field U 44 4 ∧ (field U 66 1 = 0x29 → v.serial = field U 67 4)) := by
  obtain ⟨b, hb, hm⟩ := metadata_ok hv
  refine ⟨b, _, hb, hm, ?_, ?_, ?_⟩
  · simp only
    rw [width_eq hv h1 h2]
  · intro h
    refine ⟨if_pos h, rfl, fun hs => ?_⟩
    show (extended U (at_ U)).1 = _
    unfold at_ extended
    rw [if_pos h, if_pos hs]
  · intro h
    have h' : ¬ (params U).rootEntries ≠ 0 := by omega
    refine ⟨by simp only; rw [h], if_neg h', fun hs => ?_⟩
    show (extended U (at_ U)).1 = _
    unfold at_ extended
    rw [if_neg h', if_pos hs]

/-- C56: the label of the boot sector is the volume label, if there is none in the root directory. -/
theorem C56_label (U : List Byte) (hv : Valid U) (s : Nat) (hs : s = if (params U).rootEntries ≠ 0 then 38 else 66) (h29 : field U s 1 = 0x29)
    (name : List Byte) (h0 : name ≠ []) (hlen : name.length ≤ 11) (hl : name.getLast? ≠ some 0x20#8) (hn : (U.drop (s + 5)).take 11 = FatDir.pad 11 name) :
    ∃ b v, readBoot U = .ok b ∧ metadata b = .ok v ∧ volumeLabel v = some name ∧ ∀ label, volumeLabel { v with rootLabel := some label } = some label := by
  obtain ⟨b, hb, hm⟩ := metadata_ok hv
  refine ⟨b, _, hb, hm, ?_, fun _ => rfl⟩
  have : extended U (at_ U) = (field U (s + 1) 4, name) := by
    rw [show at_ U = s from hs.symm]
    unfold extended
    rw [if_pos h29, hn, FatDirLemmas.trim_pad h0 hlen hl]
  unfold volumeLabel
  simp only [this]
  rw [if_neg h0]; rfl

/-- The number of the first cluster that is out of reach, whatever the table says: of FAT-32 volumes the last two. -/
theorem C56_violated_last (U : List Byte) (hv : Valid U) (h32 : (params U).width = .w32) :
    ∃ b v, readBoot U = .ok b ∧ metadata b = .ok v ∧ ∀ c, (params U).clusters ≤ c → Fat.readEntry v.table U c = .err := by
  obtain ⟨b, hb, hm⟩ := metadata_ok hv
  refine ⟨b, _, hb, hm, fun c hc => C30_bounds _ _ _ ?_⟩
  rcases hv.kind with ⟨-, -, -, k⟩ | ⟨-, k, -⟩
  · exact absurd h32 k
  · show (params U).area ≤ c
    refine Nat.le_trans (Nat.le_of_eq ?_) hc
    have hb := bytes_le hv.bytes
    have h0 : (params U).rootSectors = 0 := by
      unfold Params.rootSectors
      rw [k, Nat.zero_mul, Nat.zero_add, Nat.div_eq_of_lt (by omega)]
    unfold Params.area Params.clusters Params.firstSector
    rw [h0]
    rfl

/-- C57: on every volume and for every path, the look-up finds the file or directory the volume has there, in any case of letters, or nothing if there is
none; its name, size and kind are the stored ones, and its data stream reads as its clusters, for every sequence of reads and seeks. Missing for the
full property: clusters out of `reach` and reserved bits, see `C56_violated_last`, `C57_violated_start` and C30, C31. -/
theorem C57_path_partial (fold : Nat → Option Nat) (hfold : ∀ u, u < 128 → (fold u).getD u = if 97 ≤ u ∧ u ≤ 122 then u - 32 else u)
    (U : List Byte) (hU : U.length < 2 ^ 63) (hv : Valid U) (h1 : (params U).clusters < 4085 → (params U).area < 4085)
    (h2 : (params U).clusters < 65525 → (params U).area < 65525) (root : List FatDir.Stored) (hroot : Root U (reach (params U)) root) :
    ∃ v, openVolume fold U = .ok v ∧ ∀ path r, Path fold U (params U).layout (reach (params U)) root path r →
      match r with
      | none => byPath fold U v ([] :: path) = .ok none
      | some f => ∃ e, byPath fold U v ([] :: path) = .ok (some e) ∧
          FatFs.name e = some (match f.1 with | some name => .inl name | none => .inr f.2.display) ∧ FatFs.size e = f.2.size ∧
          (isDirectory e = true ↔ IsDirectory f) ∧ (IsDirectory f → dataStream U v e = .ok none) ∧
          (¬ IsDirectory f → ∀ chain, FileChain U (params U).layout (reach (params U)) f chain → ∀ ops, f.2.size + seekBudget ops < 2 ^ 63 →
            ∃ tree tr, dataStream U v e = .ok (some (f.2.size, tree)) ∧ Stream.run (Fat.stream U tree f.2.size) ⟨(), 0⟩ ops = .ok tr ∧ tr.map Prod.fst = ops ∧
              Trace true (Fat.contents U (params U).layout.first (params U).layout.clusterSize chain f.2.size) f.2.size 0 tr) := by
  obtain ⟨b, hb, hm⟩ := metadata_ok hv
  have hrr := fun (v : FatFs.Volume) (hft : Fits U v.table) => readRoot_ok (v := v) hfold hv hft hU
  generalize hvol : FatFs.Volume.mk _ _ _ _ _ _ _ = v at hm
  have hft : Fits U v.table := by
    rw [← hvol]
    exact ⟨width_eq hv h1 h2, rfl, rfl, rfl, rfl, typed hv _, cluster_dvd hv⟩
  have hr : ∀ label, ∃ st, FatFs.readRoot fold U { v with rootLabel := label } = .ok st ∧ FatFs.DirOk fold root st ∧ ∀ s ∈ root, s.Ok := by
    intro label
    refine hrr _ hft ?_ ?_ ?_ hroot <;> rw [← hvol]
    · exact fun h => if_pos h
    · exact fun h => if_neg (by omega)
  obtain ⟨st0, hst0, -, -⟩ := hr v.rootLabel
  have hopen : openVolume fold U = .ok { v with rootLabel := st0.label } := by
    unfold openVolume
    rw [hb, R.ok_bind, hm, R.ok_bind, show FatFs.readRoot fold U v = .ok st0 from hst0]; rfl
  refine ⟨_, hopen, fun path r hp => ?_⟩
  obtain ⟨st, hst, hd, hok⟩ := hr st0.label
  have hw := walk_ok (v := { v with rootLabel := st0.label }) hfold hft hU hp ⟨none, some st⟩ st hok rfl hd
  have hby : byPath fold U { v with rootLabel := st0.label } ([] :: path) = FatFs.walk fold U { v with rootLabel := st0.label } ⟨none, some st⟩ path := by
    unfold byPath
    simp only
    rw [if_neg (by simp)]
    unfold FatFs.rootEntry
    rw [hst]; rfl
  cases r with
  | none => exact hby.trans hw
  | some f =>
    obtain ⟨e, he, his, hfok⟩ := hw
    have hdir := isDirectory_eq hfok his none
    refine ⟨⟨some e, none⟩, hby.trans he, ?_, ?_, hdir, ?_, ?_⟩
    · unfold FatFs.name
      simp only [Option.map_some]
      rw [his.1, his.2]
      cases f.1 <;> rfl
    · show e.short.size = _
      rw [his.2]
    · intro h
      unfold dataStream
      simp only
      rw [if_pos (hdir.2 h)]
    · intro h chain hch ops hops
      have hnd : ¬ isDirectory ⟨some e, none⟩ = true := fun h' => h (hdir.1 h')
      unfold dataStream
      simp only
      rw [if_neg hnd, his.2]
      simp only
      rcases hch with ⟨c1, c2, rfl⟩ | ⟨c1, c2, c3, c4⟩
      · have hc : f.2.cluster = 0 := by rw [firstCluster_eq (by omega)] at c2; exact c2
        obtain ⟨tr, r1, r2, r3⟩ := empty_stream U (BlockTree.new 0 0 v.table.clusterSize) ops (by omega)
        refine ⟨_, tr, ?_, by rw [c1]; exact r1, r2, by rw [c1]; exact r3⟩
        rw [c1, hc]
        unfold Fat.openTree
        have hdc : BlockTree.divCeil 0 v.table.clusterSize = 0 := by
          unfold BlockTree.divCeil
          have := hft.typed.bs_pos
          rw [Nat.zero_add, Nat.div_eq_of_lt (by omega)]
        rw [R.check_true (by have := hft.typed.bs_pos; omega), R.ok_bind, hdc, R.mulU_ok (by omega), R.ok_bind]
        unfold Fat.openLoop
        rw [if_neg (by omega), Nat.zero_mul]; rfl
      · rw [firstCluster_eq c1] at c2
        rw [← hft.width, ← hft.offset] at c2
        rw [← hft.size] at c4
        obtain ⟨tree, tr, t1, t2, t3, t4⟩ := C31_contents_partial v.table U f.2.size f.2.cluster chain hft.typed (by omega) c2
          (fun x hx => ⟨(fits_mem hft c3 hx).1, (fits_mem hft c3 hx).2.1⟩) (fun x hx => (fits_mem hft c3 hx).2.2.1) (fun x hx => (fits_mem hft c3 hx).2.2.2.1)
          (fun x hx => (fits_mem hft c3 hx).2.2.2.2) c4 hfok.2.2.2.2.2.2.2.2.2.2.2.2.2 ops hops
        refine ⟨tree, tr, ?_, t2, t3, ?_⟩
        · rw [t1]; rfl
        · rw [← hft.first, ← hft.size]; exact t4

/-! ## A volume -/

/-- A boot sector: reserved sectors, tables, root entries, sectors, sectors of a table, and bytes from 32 on. -/
def bootSector (reserved tables rootEntries sectors tableSectors : Nat) (rest : List Byte) : List Byte :=
  List.replicate 11 0#8 ++ leBytes 2 512 ++ leBytes 1 1 ++ leBytes 2 reserved ++ leBytes 1 tables ++ leBytes 2 rootEntries ++ leBytes 2 sectors ++ [0xf8#8] ++
    leBytes 2 tableSectors ++ List.replicate 8 0#8 ++ rest ++ List.replicate (478 - rest.length) 0#8 ++ [0x55#8, 0xaa#8]

/-- A file of 600 bytes, a directory and a file in it. -/
def sampleFile : FatDir.Short := ⟨[0x41#8], [0x54#8, 0x58#8, 0x54#8], 0x20#8, 0#8, List.replicate 13 0#8, 2, 600⟩
def sampleDirectory : FatDir.Short := ⟨[0x44#8], [], 0x10#8, 0#8, List.replicate 13 0#8, 4, 0⟩
def sampleInner : FatDir.Short := ⟨[0x42#8], [], 0x20#8, 0#8, List.replicate 13 0#8, 0, 0⟩
def sampleRoot : List FatDir.Stored := [.file none sampleFile, .file (some ([0x64, 0xe9], 0x12#8)) sampleDirectory]
def sampleSub : List FatDir.Stored := [.file (some ([0x62], 0x34#8)) sampleInner]

/-- A FAT-12 volume of 8 sectors with the table `f8 ff ff | 2 → 3 → end | 4 → end`. -/
def sampleVolume : List Byte :=
  bootSector 1 1 16 8 1 [] ++ ([0xf8#8, 0xff#8, 0xff#8, 0x03#8, 0xf0#8, 0xff#8, 0xff#8, 0x0f#8] ++ List.replicate 504 0#8) ++
    ((sampleRoot.flatMap fun s => s.item.bytes) ++ List.replicate (512 - (sampleRoot.flatMap fun s => s.item.bytes).length) 0#8) ++
    List.replicate 512 0x61#8 ++ List.replicate 512 0x62#8 ++ ((sampleSub.flatMap fun s => s.item.bytes) ++
    List.replicate (512 - (sampleSub.flatMap fun s => s.item.bytes).length) 0#8) ++ List.replicate 1024 0#8

theorem sample_valid : Valid sampleVolume := by
  refine ⟨?_, ?_, ?_, ?_, ?_, ?_, ?_⟩ <;> decide +kernel

example : (params sampleVolume).clusters < 4085 ∧ (params sampleVolume).area < 4085 ∧ (params sampleVolume).layout = ⟨.w12, 512, 1536, 512⟩ := by
  refine ⟨?_, ?_, rfl⟩ <;> decide +kernel

/-- A FAT-32 volume, and one with a label. -/
example : Valid (bootSector 32 2 0 0 0 (leBytes 4 70000 ++ leBytes 4 550 ++ leBytes 4 0 ++ leBytes 4 2)) ∧
    (params (bootSector 32 2 0 0 0 (leBytes 4 70000 ++ leBytes 4 550 ++ leBytes 4 0 ++ leBytes 4 2))).width = .w32 := by
  refine ⟨?_, by decide +kernel⟩
  refine ⟨?_, ?_, ?_, ?_, ?_, ?_, ?_⟩ <;> decide +kernel

example : ∃ U, Valid U ∧ (params U).rootEntries ≠ 0 ∧ field U 38 1 = 0x29 ∧ (U.drop 43).take 11 = FatDir.pad 11 [0x41#8, 0x20#8, 0x42#8] := by
  refine ⟨bootSector 1 1 16 8 1 (List.replicate 6 0#8 ++ [0x29#8, 1#8, 2#8, 3#8, 4#8] ++ FatDir.pad 11 [0x41#8, 0x20#8, 0x42#8]), ?_, ?_, ?_, ?_⟩
  · refine ⟨?_, ?_, ?_, ?_, ?_, ?_, ?_⟩ <;> decide +kernel
  · decide +kernel
  · decide +kernel
  · decide +kernel

/-- Upper case of ASCII. -/
def sampleFold (u : Nat) : Option Nat := if 97 ≤ u ∧ u ≤ 122 then some (u - 32) else none

theorem sample_fold : ∀ u, u < 128 → (sampleFold u).getD u = if 97 ≤ u ∧ u ≤ 122 then u - 32 else u := by
  intro u _
  unfold sampleFold
  split <;> rfl

theorem sample_short : sampleFile.Ok ∧ sampleDirectory.Ok ∧ sampleInner.Ok := by
  unfold FatDir.Short.Ok; decide +kernel

theorem sample_root : Root sampleVolume (reach (params sampleVolume)) sampleRoot := by
  unfold Root
  rw [if_pos (by decide +kernel)]
  refine ⟨by decide +kernel, ?_, 416, by decide +kernel⟩
  intro s hs
  simp only [sampleRoot, List.mem_cons, List.not_mem_nil, or_false] at hs
  rcases hs with rfl | rfl
  · exact ⟨sample_short.1, by decide +kernel⟩
  · exact ⟨by decide, by decide, by decide, sample_short.2.1⟩

theorem sample_in {chain : List Nat} (h : ∀ c ∈ chain, c = 2 ∨ c = 3 ∨ c = 4) : InVolume sampleVolume (params sampleVolume).layout (reach (params sampleVolume)) chain := by
  intro c hc
  rcases h c hc with rfl | rfl | rfl
  · refine ⟨?_, ?_, ?_, ?_⟩ <;> decide +kernel
  · refine ⟨?_, ?_, ?_, ?_⟩ <;> decide +kernel
  · refine ⟨?_, ?_, ?_, ?_⟩ <;> decide +kernel

/-- The path `Dé`, `B` of the volume leads to a file in a directory, the path `a.txt` to a file with two clusters. -/
example : Path sampleFold sampleVolume (params sampleVolume).layout (reach (params sampleVolume)) sampleRoot [[0x44, 0xe9], [0x42]] (some (some [0x62], sampleInner)) := by
  refine .directory (f := (some [0x64, 0xe9], sampleDirectory)) (by rfl) (by unfold IsDirectory; decide +kernel) (by decide +kernel) (stored' := sampleSub) ?_ (by simp) (.here (by rfl))
  refine ⟨[4], .next (by decide +kernel) (by decide +kernel) (.last (by decide +kernel)), sample_in (by decide), ?_, 448, by decide +kernel⟩
  intro s hs
  simp only [sampleSub, List.mem_cons, List.not_mem_nil, or_false] at hs
  subst hs
  exact ⟨by decide, by decide, by decide, sample_short.2.2⟩

example : Path sampleFold sampleVolume (params sampleVolume).layout (reach (params sampleVolume)) sampleRoot [[0x61, 0x2e, 0x74, 0x78, 0x74]] (some (none, sampleFile)) :=
  .here (by rfl)

example : FileChain sampleVolume (params sampleVolume).layout (reach (params sampleVolume)) (none, sampleFile) [2, 3] ∧ ¬ IsDirectory (none, sampleFile) := by
  refine ⟨.inr ⟨by decide +kernel, ?_, sample_in (by decide), by decide +kernel⟩, by unfold IsDirectory; decide +kernel⟩
  have e2 : Fat.entry (params sampleVolume).layout.width (sampleVolume.drop (params sampleVolume).layout.table) 2 = 3 := by decide +kernel
  have e3 : Fat.entry (params sampleVolume).layout.width (sampleVolume.drop (params sampleVolume).layout.table) 3 = 0xfff := by decide +kernel
  refine .next (by decide +kernel) (by decide +kernel) ?_
  show Fat.Chain _ _ (Fat.entry (params sampleVolume).layout.width (sampleVolume.drop (params sampleVolume).layout.table) 2) _
  rw [e2]
  refine .next (by decide +kernel) (by decide +kernel) ?_
  rw [e3]
  exact .last (by decide +kernel)

/-- The number of clusters without the root directory is below 4085, so it is a FAT-12 volume, but the code takes it for a FAT-16 volume: it counts the
root directory. -/
theorem C56_violated_format : ∃ U, Valid U ∧ (params U).width = .w12 ∧ ∃ b v, readBoot U = .ok b ∧ metadata b = .ok v ∧ v.table.format = .fat16 := by
  have hv : Valid (bootSector 1 2 512 4141 12 []) := by refine ⟨?_, ?_, ?_, ?_, ?_, ?_, ?_⟩ <;> decide +kernel
  obtain ⟨b, hb, hm⟩ := metadata_ok hv
  exact ⟨_, hv, by decide +kernel, b, _, hb, hm, by show format (bootSector 1 2 512 4141 12 []) = _; decide +kernel⟩

/-- C56: which format is chosen for a volume with a root directory of its own. What is missing: `Params.area` counts the sectors of the root directory
as if they belonged to clusters, which `C56_violated_format` and the last part here have as the consequence. -/
theorem C56_format_partial (U : List Byte) (hv : Valid U) (h0 : (params U).rootEntries ≠ 0) :
    ∃ b v, readBoot U = .ok b ∧ metadata b = .ok v ∧
      ((params U).area < 4085 → v.table.format = .fat12) ∧
      (4085 ≤ (params U).area → (params U).area < 65525 → v.table.format = .fat16) ∧
      (65525 ≤ (params U).area → v.table.format = .fat32 ∧ (params U).width ≠ .w32) := by
  obtain ⟨b, hb, hm⟩ := metadata_ok hv
  have e : format U = FatFs.formatOf 0 (params U).area := by unfold format; rw [if_pos h0]
  refine ⟨b, _, hb, hm, fun h => ?_, fun h h' => ?_, fun h => ⟨?_, ?_⟩⟩
  · show format U = _
    rw [e, FatFs.formatOf, if_neg (by omega), if_neg (by omega)]
  · show format U = _
    rw [e, FatFs.formatOf, if_neg (by omega), if_pos (by omega)]
  · show format U = _
    rw [e, FatFs.formatOf, if_pos (by omega)]
  · rcases hv.kind with ⟨-, -, -, k⟩ | ⟨-, k, -⟩
    · exact k
    · exact absurd k h0

/-- A volume on the boundary: 65525 times the size of a cluster behind the tables, of which 32 sectors are the root directory. -/
example : Valid (bootSector 1 2 512 0 256 (leBytes 4 66038)) ∧ (params (bootSector 1 2 512 0 256 (leBytes 4 66038))).rootEntries ≠ 0 ∧
    (params (bootSector 1 2 512 0 256 (leBytes 4 66038))).area = 65525 := by
  refine ⟨?_, ?_, ?_⟩
  · refine ⟨?_, ?_, ?_, ?_, ?_, ?_, ?_⟩ <;> decide +kernel
  · decide +kernel
  · decide +kernel

/-- A boot sector with more reserved sectors than sectors is not rejected with an error: the program panics. -/
theorem C56_violated_panic : ∃ U b, readBoot U = .ok b ∧ metadata b = .panic := by
  refine ⟨bootSector 9 1 16 8 1 [], ⟨512, 1, 9, 1, 16, 1, 8, 0, 0, []⟩, ?_, rfl⟩
  decide +kernel

/-- Volume labels of the root directory lose their spaces: this one is `ABC     DEF`. -/
theorem C56_violated_label : ∃ entry : List Byte, FatDir.IsLabel entry ∧
    entry.take 11 = [0x41#8, 0x42#8, 0x43#8, 0x20#8, 0x20#8, 0x20#8, 0x20#8, 0x20#8, 0x44#8, 0x45#8, 0x46#8] ∧
    (do let st ← FatDir.readData (fun _ => none) 0 FatDir.init entry; return st.label) = R.ok (some [0x41#8, 0x42#8, 0x43#8, 0x44#8, 0x45#8, 0x46#8]) := by
  refine ⟨[0x41#8, 0x42#8, 0x43#8, 0x20#8, 0x20#8, 0x20#8, 0x20#8, 0x20#8, 0x44#8, 0x45#8, 0x46#8, 0x08#8] ++ List.replicate 20 0#8, ?_, ?_, ?_⟩
  · refine ⟨?_, ?_, ?_, ?_⟩ <;> decide +kernel
  · decide +kernel
  · decide +kernel

/-- Files of FAT-32 volumes that start at cluster 65536 or later are looked for elsewhere. -/
theorem C57_violated_start (l : Layout) (f : File) (hok : f.2.Ok) (h : 65536 ≤ firstCluster l f) :
    ∃ e, FatDir.readShort f.2.bytes = .ok e ∧ e.startCluster ≠ firstCluster l f := by
  refine ⟨_, C32_short_name f.2 hok, ?_⟩
  have := hok.2.2.2.2.2.2.2.2.2.2.2.2.1
  simp only
  omega

end Keramics.Props
