import Verif.Model.NtfsVolume
import Verif.Spec.NtfsFileSystem
import Verif.Lemmas.Ntfs
import Verif.Lemmas.Volumes
import Verif.Props.Ntfs
import Verif.Props.Types
import Verif.Base.Tactics

namespace Keramics.NtfsFs
open Keramics.Spec Keramics.Spec.Ntfs Keramics.Spec.NtfsFs
open Keramics.Ntfs (DataRun Group Range)

/-! ## Fields -/

theorem u16_ok {data : List Byte} {off : Nat} (h : off + 2 ≤ data.length) : u16le data off = .ok (field data off 2) := by
  unfold u16le; rw [slice_bytesAt h]; rfl

theorem get_ok {data : List Byte} {off : Nat} (h : off < data.length) : ∃ b, R.get data off = .ok b ∧ b.toNat = field data off 1 := by
  refine ⟨data[off], by unfold R.get; rw [List.getElem?_eq_getElem h], ?_⟩
  unfold field bytesAt
  rw [List.drop_eq_getElem_cons h, List.take_succ_cons, List.take_zero]
  rfl

theorem field_drop (d : List Byte) (k off n : Nat) : field (d.drop k) off n = field d (k + off) n := by
  unfold field bytesAt; rw [List.drop_drop]

theorem bytesAt_drop (d : List Byte) (k off n : Nat) : bytesAt (d.drop k) off n = bytesAt d (k + off) n := by
  unfold bytesAt; rw [List.drop_drop]

theorem field_take {d : List Byte} {k off n : Nat} (h : off + n ≤ k) : field (d.take k) off n = field d off n := by
  unfold field bytesAt
  rw [List.drop_take, List.take_take, Nat.min_eq_left (by omega)]

theorem bytesAt_take {d : List Byte} {k off n : Nat} (h : off + n ≤ k) : bytesAt (d.take k) off n = bytesAt d off n := by
  unfold bytesAt
  rw [List.drop_take, List.take_take, Nat.min_eq_left (by omega)]

theorem field_bytesAt {d : List Byte} {k m off n : Nat} (h : off + n ≤ m) : field (bytesAt d k m) off n = field d (k + off) n := by
  unfold field; rw [bytesAt_bytesAt h]

theorem slice_rest {data : List Byte} {off : Nat} (h : off ≤ data.length) : R.slice data off data.length = .ok (data.drop off) := by
  rw [R.slice_ok h (Nat.le_refl _), List.take_of_length_le (by rw [List.length_drop])]

theorem mulU_inv {n a b c : Nat} (h : R.mulU n a b = .ok c) : c = a * b := by
  unfold R.mulU at h
  split at h
  · cases h; rfl
  · cases h

/-! ## Boot record -/

/-- What is read from a boot sector. -/
def expectedBoot (U : List Byte) : Boot := ⟨sectorSize U, clusterSize U, entrySize U, indexSize U, mftStart U, field U 56 8, field U 72 8⟩

theorem recordSize_ok {c v : Nat} (hv : (1 ≤ v ∧ v ≤ 127) ∨ (225 ≤ v ∧ v ≤ 255)) (hc : c ≤ 2 ^ 21) :
    recordSize c v = .ok (if v < 128 then v * c else 2 ^ (256 - v)) := by
  unfold recordSize
  rw [if_neg (by omega)]
  rcases hv with h | h
  · have : v * c ≤ 127 * 2 ^ 21 := Nat.mul_le_mul h.2 hc
    rw [if_pos (by omega), if_pos (by omega), R.mulU_ok (by omega)]
  · rw [if_neg (by omega), if_neg (by omega), if_neg (by omega), if_neg (by omega)]

theorem recordSize_inv {c v s : Nat} (h : recordSize c v = .ok s) :
    ((1 ≤ v ∧ v ≤ 127) ∨ (225 ≤ v ∧ v ≤ 255)) ∧ s = if v < 128 then v * c else 2 ^ (256 - v) := by
  unfold recordSize at h
  split at h
  · cases h
  · split at h
    · rename_i h1 h2
      have := mulU_inv h
      exact ⟨Or.inl (by omega), by rw [if_pos h2, this]⟩
    · split at h
      · cases h
      · split at h
        · cases h
        · cases h
          exact ⟨Or.inr (by omega), by rw [if_neg (by omega)]⟩

theorem mem_sizes {c : Nat} : c ∈ [256, 512, 1024, 2048, 4096, 8192, 16384, 32768, 65536, 131072, 262144, 524288, 1048576, 2097152] ↔
    ∃ k, 8 ≤ k ∧ k ≤ 21 ∧ c = 2 ^ k := by
  constructor
  · intro h
    simp only [List.mem_cons, List.not_mem_nil, or_false] at h
    rcases h with rfl | rfl | rfl | rfl | rfl | rfl | rfl | rfl | rfl | rfl | rfl | rfl | rfl | rfl
    · exact ⟨8, by decide⟩
    · exact ⟨9, by decide⟩
    · exact ⟨10, by decide⟩
    · exact ⟨11, by decide⟩
    · exact ⟨12, by decide⟩
    · exact ⟨13, by decide⟩
    · exact ⟨14, by decide⟩
    · exact ⟨15, by decide⟩
    · exact ⟨16, by decide⟩
    · exact ⟨17, by decide⟩
    · exact ⟨18, by decide⟩
    · exact ⟨19, by decide⟩
    · exact ⟨20, by decide⟩
    · exact ⟨21, by decide⟩
  · rintro ⟨k, h1, h2, rfl⟩
    have : k = 8 ∨ k = 9 ∨ k = 10 ∨ k = 11 ∨ k = 12 ∨ k = 13 ∨ k = 14 ∨ k = 15 ∨ k = 16 ∨ k = 17 ∨ k = 18 ∨ k = 19 ∨ k = 20 ∨ k = 21 := by omega
    rcases this with rfl | rfl | rfl | rfl | rfl | rfl | rfl | rfl | rfl | rfl | rfl | rfl | rfl | rfl <;> decide

theorem cluster_le {U : List Byte} (h : Spec.NtfsFs.Boot U) : 256 ≤ clusterSize U ∧ clusterSize U ≤ 2 ^ 21 := by
  obtain ⟨k, h1, h2, h3⟩ := h.cluster
  rw [h3]
  exact ⟨Nat.pow_le_pow_right (n := 2) (by decide) h1, Nat.pow_le_pow_right (by decide) h2⟩

theorem sectorsOf_ok {v : Nat} (h : v ≤ 128 ∨ 244 ≤ v) : sectorsOf v = .ok (if v ≤ 128 then v else 2 ^ (256 - v)) := by
  unfold sectorsOf
  split
  · rfl
  · rw [if_neg (by omega)]

theorem sectorsOf_inv {v s : Nat} (h : sectorsOf v = .ok s) : (v ≤ 128 ∨ 244 ≤ v) ∧ s = if v ≤ 128 then v else 2 ^ (256 - v) := by
  unfold sectorsOf at h
  split at h
  · rename_i h1; cases h; exact ⟨Or.inl h1, by rw [if_pos h1]⟩
  · split at h
    · cases h
    · rename_i h1 h2; cases h; exact ⟨Or.inr (by omega), by rw [if_neg h1]⟩

theorem sector_mem {s : Nat} : s ∈ [256, 512, 1024, 2048, 4096] ↔ (s = 256 ∨ s = 512 ∨ s = 1024 ∨ s = 2048 ∨ s = 4096) := by simp

theorem readBoot_ok {U : List Byte} (h : Spec.NtfsFs.Boot U) : readBoot (U.take 512) = .ok (expectedBoot U) := by
  have hl : (U.take 512).length = 512 := by rw [List.length_take]; have := h.length; omega
  obtain ⟨b, hb, hbv⟩ := get_ok (data := U.take 512) (off := 13) (by omega)
  rw [field_take (by omega)] at hbv
  have hc := cluster_le h
  have hsec : field U 11 2 ∈ [256, 512, 1024, 2048, 4096] := sector_mem.2 h.sector
  have hent : 42 ≤ (if field U 64 4 < 128 then field U 64 4 * clusterSize U else 2 ^ (256 - field U 64 4)) ∧
    (if field U 64 4 < 128 then field U 64 4 * clusterSize U else 2 ^ (256 - field U 64 4)) ≤ 65535 := h.entry
  have hind : 32 ≤ (if field U 68 4 < 128 then field U 68 4 * clusterSize U else 2 ^ (256 - field U 68 4)) ∧
    (if field U 68 4 < 128 then field U 68 4 * clusterSize U else 2 ^ (256 - field U 68 4)) ≤ 16777216 := h.index
  unfold readBoot
  rw [R.require_true (by omega), R.ok_bind, slice_bytesAt' (n := 8) rfl (by omega), R.ok_bind, bytesAt_take (by omega), R.require_true h.signature,
    R.ok_bind, u16_ok (by omega), R.ok_bind, field_take (by omega), R.require_true hsec, R.ok_bind, hb, R.ok_bind, hbv,
    sectorsOf_ok h.sectors, R.ok_bind]
  have e1 : R.mulU 32 (if field U 13 1 ≤ 128 then field U 13 1 else 2 ^ (256 - field U 13 1)) (field U 11 2) = .ok (clusterSize U) :=
    R.mulU_ok (by show clusterSize U < _; omega)
  rw [e1, R.ok_bind, R.require_true (mem_sizes.2 h.cluster), R.ok_bind, u32le_field (by omega), R.ok_bind, field_take (by omega),
    recordSize_ok h.entryByte hc.2, R.ok_bind, R.require_true hent, R.ok_bind, u64le_field (by omega), R.ok_bind, u64le_field (by omega), R.ok_bind,
    u64le_field (by omega), R.ok_bind, u32le_field (by omega), R.ok_bind, field_take (by omega),
    recordSize_ok h.indexByte hc.2, R.ok_bind, R.require_true hind, R.ok_bind, u64le_field (by omega), R.ok_bind]
  have hs : 0 < field U 11 2 := by
    have := h.sector
    unfold sectorSize at this
    omega
  rw [field_take (by omega), R.require_true ((Nat.le_div_iff_mul_le hs).2 (by have := h.total; unfold sectorSize at this; omega)), R.ok_bind,
    field_take (by omega), field_take (by omega), field_take (by omega)]
  rfl

theorem readBoot_inv {U : List Byte} {b : Boot} (h : readBoot (U.take 512) = .ok b) : Spec.NtfsFs.Boot U := by
  unfold readBoot at h
  obtain ⟨_, h1, h⟩ := R.bind_eq_ok.1 h
  have h1 := R.require_eq_ok.1 h1
  have hU : 512 ≤ U.length := by rw [List.length_take] at h1; omega
  have hl : (U.take 512).length = 512 := by rw [List.length_take]; omega
  obtain ⟨c, hb, hbv⟩ := get_ok (data := U.take 512) (off := 13) (by omega)
  rw [field_take (by omega)] at hbv
  rw [slice_bytesAt' (n := 8) rfl (by omega), R.ok_bind, bytesAt_take (by omega)] at h
  obtain ⟨_, h2, h⟩ := R.bind_eq_ok.1 h
  rw [u16_ok (by omega), R.ok_bind, field_take (by omega)] at h
  obtain ⟨_, h3, h⟩ := R.bind_eq_ok.1 h
  rw [hb, R.ok_bind, hbv] at h
  obtain ⟨f, h4, h⟩ := R.bind_eq_ok.1 h
  obtain ⟨h4', rfl⟩ := sectorsOf_inv h4
  obtain ⟨cs, h5, h⟩ := R.bind_eq_ok.1 h
  have hcs : cs = clusterSize U := mulU_inv h5
  subst hcs
  obtain ⟨_, h6, h⟩ := R.bind_eq_ok.1 h
  rw [u32le_field (by omega), R.ok_bind, field_take (by omega)] at h
  obtain ⟨es, h7, h⟩ := R.bind_eq_ok.1 h
  obtain ⟨h7', rfl⟩ := recordSize_inv h7
  obtain ⟨_, h8, h⟩ := R.bind_eq_ok.1 h
  rw [u64le_field (by omega), R.ok_bind, u64le_field (by omega), R.ok_bind, u64le_field (by omega), R.ok_bind, u32le_field (by omega), R.ok_bind,
    field_take (d := U) (off := 68) (by omega)] at h
  obtain ⟨is, h9, h⟩ := R.bind_eq_ok.1 h
  obtain ⟨h9', rfl⟩ := recordSize_inv h9
  obtain ⟨_, h10, h⟩ := R.bind_eq_ok.1 h
  rw [u64le_field (by omega), R.ok_bind, field_take (d := U) (off := 40) (by omega)] at h
  obtain ⟨_, h11, h⟩ := R.bind_eq_ok.1 h
  have h3 := sector_mem.1 (R.require_eq_ok.1 h3)
  have hs : 0 < field U 11 2 := by omega
  have h11 := (Nat.le_div_iff_mul_le hs).1 (R.require_eq_ok.1 h11)
  exact ⟨hU, R.require_eq_ok.1 h2, h3, h4', mem_sizes.1 (R.require_eq_ok.1 h6), h7', R.require_eq_ok.1 h8, h9', R.require_eq_ok.1 h10,
    by unfold sectorSize; omega⟩

/-! ## Records -/

theorem protect_length {number : List Byte} (hn : number.length = 2) (k : Nat) (r : List Byte) (h : 512 * k ≤ r.length) :
    (protect number k r).length = r.length := by
  induction k generalizing r with
  | zero => rfl
  | succ k ih =>
    have := ih (r.drop 512) (by rw [List.length_drop]; omega)
    rw [protect, List.length_append, List.length_append, List.length_take, this, hn, List.length_drop]; omega

theorem stored_length {raw record : List Byte} (h : Stored raw record) : raw.length = record.length ∧ 512 ≤ record.length := by
  obtain ⟨k, number, h1, h2, -, -, h5, -, rfl⟩ := h
  exact ⟨protect_length h5 k record (by omega), by omega⟩

theorem stored_take {raw record : List Byte} (h : Stored raw record) : raw.take 510 = record.take 510 := by
  obtain ⟨k, number, h1, h2, -, -, h5, -, rfl⟩ := h
  obtain ⟨k, rfl⟩ : ∃ k', k = k' + 1 := ⟨k - 1, by omega⟩
  rw [protect, List.append_assoc, Ntfs.take_left (by rw [List.length_take]; omega)]

theorem stored_field {raw record : List Byte} (h : Stored raw record) {a n : Nat} (hn : a + n ≤ 510) : field raw a n = field record a n := by
  rw [← field_take hn, stored_take h, field_take hn]

theorem stored_bytes {raw record : List Byte} (h : Stored raw record) {a n : Nat} (hn : a + n ≤ 510) : bytesAt raw a n = bytesAt record a n := by
  rw [← bytesAt_take hn, stored_take h, bytesAt_take hn]

theorem stored_restore {raw record : List Byte} (h : Stored raw record) : Ntfs.applyFixups raw (field record 4 2) (field record 6 2) = .ok record := by
  obtain ⟨k, number, h1, h2, h3, h4, h5, h6, rfl⟩ := h
  rw [h3]
  exact Props.C34_restore record number k _ h2 h1 h5 h4 h6

/-- What is read from an MFT entry. -/
def entryOf (record : List Byte) : Entry :=
  ⟨record, field record 16 2, field record 32 8, field record 8 8, field record 20 2, false, false, true⟩

theorem readEntry_ok {raw record : List Byte} (h : Stored raw record) (he : Spec.NtfsFs.Entry record) : readEntry raw = .ok (entryOf record) := by
  obtain ⟨hl, h512⟩ := stored_length h
  have hsig := (stored_bytes h (a := 0) (n := 4) (by omega)).trans he.signature
  unfold readEntry
  rw [slice_bytesAt' (n := 4) rfl (by omega), R.ok_bind, hsig, if_neg (by decide), if_neg (by decide)]
  unfold readUsed
  have harr := he.array
  have hat := he.attributes
  have h6 : 2 ≤ field record 6 2 := by obtain ⟨k, _, _, _, h3, _⟩ := h; omega
  rw [R.require_true (by omega), R.ok_bind, slice_bytesAt' (n := 4) rfl (by omega), R.ok_bind, hsig, R.require_true rfl, R.ok_bind,
    u16_ok (by omega), R.ok_bind, u16_ok (by omega), R.ok_bind, u64le_field (by omega), R.ok_bind, u16_ok (by omega), R.ok_bind,
    u16_ok (by omega), R.ok_bind, u32le_field (by omega), R.ok_bind, u64le_field (by omega), R.ok_bind]
  have hin := he.inside
  rw [stored_field h (by omega), stored_field h (by omega), stored_field h (by omega), stored_field h (by omega), stored_field h (by omega), stored_field h (by omega), stored_field h (by omega),
    R.require_true (by rw [he.size, hl]), R.ok_bind, R.require_true (by omega), R.ok_bind,
    R.require_true (by unfold headerSize; split <;> omega), R.ok_bind, R.require_true (by omega), R.ok_bind, stored_restore h, R.ok_bind]
  rfl

theorem readEntryAt_ok {U record : List Byte} {size position : Nat} (hs : 42 ≤ size ∧ size ≤ 65535) (hp : position + size ≤ U.length)
    (h : Stored (bytesAt U position size) record) (he : Spec.NtfsFs.Entry record) : readEntryAt U size position = .ok (entryOf record) := by
  unfold readEntryAt
  rw [R.require_true hs, R.ok_bind, readExactAt_ok hp, R.ok_bind]
  exact readEntry_ok h he

/-! ## Attributes -/

/-- What is read of an attribute. -/
def attrOf (length compressed : Nat) (a : Attribute) : Attr := match a.value with
  | .resident data => ⟨a.kind, length, a.name, 0, data.length, 0, 0, 0, data, [], 0#8, a.flags⟩
  | .clusters first last allocated size valid unit runs => ⟨a.kind, length, a.name, allocated, size, valid, if unit = 0 then 0 else 2 ^ unit, compressed, [],
      [(first, last, runs.map Ntfs.kept)], 1#8, a.flags⟩

theorem unitsLe_length (n : Nat) (d : List Byte) (h : d.length = 2 * n) : (unitsLe d).length = n := by
  induction n generalizing d with
  | zero => rw [List.length_eq_zero_iff.1 h]; rfl
  | succ n ih =>
    match d, h with
    | a :: b :: d, h => rw [unitsLe, List.length_cons, ih d (by simp at h; omega)]

theorem takeWhile_all {l : List Nat} (h : 0 ∉ l) : l.takeWhile (· ≠ 0) = l := by
  induction l with
  | nil => rfl
  | cons a l ih =>
    have ha : a ≠ 0 := fun e => h (e ▸ List.mem_cons_self)
    rw [List.takeWhile_cons, if_pos (decide_eq_true ha), ih fun k => h (List.mem_cons_of_mem _ k)]

/-- The name of an attribute of which `data` are the bytes from its start on. -/
theorem readName_ok {record : List Byte} {o start last : Nat} {name : Option (List Nat)} (h : NameAt record o start last name) (hl : o + last ≤ record.length) :
    ∃ off, readName (record.drop o) start (field record (o + 9) 1) (field record (o + 10) 2) = .ok (name, off) ∧ (off ≤ last ∨ off = start) := by
  cases name with
  | none =>
    have h : field record (o + 9) 1 = 0 := h
    unfold readName
    rw [h, if_neg (by omega)]
    exact ⟨_, rfl, Or.inr rfl⟩
  | some name =>
    obtain ⟨h1, h2, h3, h4, h5, h6⟩ := h
    have hpos : 0 < name.length := List.length_pos_iff.2 h1
    unfold readName
    have hdl : (record.drop o).length = record.length - o := List.length_drop
    rw [h3, if_pos hpos, R.require_true (by omega), R.ok_bind, R.require_true (by omega), R.ok_bind,
      slice_bytesAt' (n := 2 * name.length) (by omega) (by omega), R.ok_bind, bytesAt_drop,
      Props.C15_decode_le _ (by rw [bytesAt_length (by omega)]; omega), R.ok_bind, h6, takeWhile_all h2]
    exact ⟨_, rfl, Or.inl (by omega)⟩

theorem even_bit (b : Byte) : b &&& 1#8 = 0#8 ↔ b.toNat % 2 = 0 := by revert b; decide +kernel

theorem byte_eq {b : Byte} {v : Nat} (h : b.toNat = v) : b = BitVec.ofNat 8 v := by
  rw [← h]; simp

theorem residentData_ok {record data : List Byte} {o length start : Nat} (hin : o + length ≤ record.length)
    (h : data ≠ [] → start ≤ field record (o + 20) 2 ∧ field record (o + 20) 2 + data.length ≤ length ∧
        bytesAt record (o + field record (o + 20) 2) data.length = data) :
    residentData (record.drop o) start data.length (field record (o + 20) 2) = .ok data := by
  unfold residentData
  by_cases hd : data = []
  · subst hd; rw [if_neg (by simp)]
  · obtain ⟨h1, h2, h3⟩ := h hd
    have hpos : 0 < data.length := List.length_pos_iff.2 hd
    have hdl : (record.drop o).length = record.length - o := List.length_drop
    rw [if_pos hpos, R.require_true (by omega), R.ok_bind, R.require_true (by omega), R.ok_bind, slice_bytesAt' rfl (by omega), bytesAt_drop, h3]

theorem readUnit_ok {rest : List Byte} {unit : Nat} (hu : unit ≤ 31) (h : unit ≠ 0 → 56 ≤ rest.length) :
    ∃ c, readUnit rest unit = .ok (if unit = 0 then 0 else 2 ^ unit, c) := by
  unfold readUnit
  by_cases h0 : unit = 0
  · rw [if_neg (by omega), if_pos h0]; exact ⟨_, rfl⟩
  · have := h h0
    rw [if_pos (by omega), R.require_true this, R.ok_bind, R.require_true hu, R.ok_bind, u64le_field (by omega), R.ok_bind, if_neg h0]
    exact ⟨_, rfl⟩

theorem readRuns_ok {data bytes junk tail : List Byte} {ro : Nat} {runs : List Run} (he : Encodes 0 runs bytes)
    (hlcn : ∀ count lcn, Run.data count lcn ∈ runs → lcn < 2 ^ 63) (hd : data.drop ro = bytes ++ 0#8 :: junk ++ tail) (hr : ro ≤ data.length)
    (hl : data.length < 2 ^ 64) : ∃ n, Ntfs.readRuns data ro = .ok (n, runs.map Ntfs.kept) := by
  have hsplit : data = data.take ro ++ bytes ++ (0#8 :: (junk ++ tail)) := by
    conv_lhs => rw [← List.take_append_drop ro data, hd]
    simp
  have hlen : (data.take ro).length = ro := by rw [List.length_take]; omega
  have h := Props.C33_data_runs runs bytes he hlcn (data.take ro) (0#8 :: (junk ++ tail)) (Or.inr ⟨_, rfl⟩) (by rw [← hsplit]; exact hl)
  rw [← hsplit, hlen] at h
  refine ⟨bytes.length + min 1 (0#8 :: (junk ++ tail)).length, h.trans ?_⟩
  congr 3

theorem readAttr_ok {record : List Byte} {o length : Nat} {a : Attribute} (h : AttributeAt record o length a) (hl : record.length < 2 ^ 32) :
    ∃ c, readAttr (record.drop o) = .ok (attrOf length c a) := by
  obtain ⟨hin, hkind, -, hsize, hflags, hmethod, hv⟩ := h
  obtain ⟨kind, flags, name, value⟩ := a
  simp only at hkind hflags hmethod hv
  have hdl : (record.drop o).length = record.length - o := List.length_drop
  have h24 : 24 ≤ length := by cases value with
    | resident data => exact hv.2.1
    | clusters first last allocated size valid unit runs => have := hv.2.1; omega
  obtain ⟨b8, hb8, hb8v⟩ := get_ok (data := record.drop o) (off := 8) (by omega)
  obtain ⟨b9, hb9, hb9v⟩ := get_ok (data := record.drop o) (off := 9) (by omega)
  rw [field_drop] at hb8v hb9v
  unfold readAttr
  rw [R.require_true (by omega), R.ok_bind, u32le_field (by omega), R.ok_bind, u32le_field (by omega), R.ok_bind, hb8, R.ok_bind, hb9, R.ok_bind,
    u16_ok (by omega), R.ok_bind, u16_ok (by omega), R.ok_bind, field_drop, field_drop, field_drop, field_drop, hflags, Nat.add_zero, hkind, hsize, hb9v]
  have hand : flags &&& 0xff = flags % 256 := Nat.and_two_pow_sub_one_eq_mod flags 8
  rw [R.require_true (by omega), R.ok_bind]
  cases value with
  | resident data =>
    obtain ⟨v1, v2, v3, v4, v5⟩ := hv
    rw [v1] at hb8v
    have hb := byte_eq hb8v
    subst hb
    rw [if_pos (by decide)]
    unfold readResidentAttr
    rw [slice_rest (by omega), R.ok_bind, R.require_true (by rw [List.length_drop]; omega), R.ok_bind,
      u32le_field (by rw [List.length_drop]; omega), R.ok_bind, u16_ok (by rw [List.length_drop]; omega), R.ok_bind, field_drop, field_drop, field_drop,
      field_drop, Nat.add_zero, v3]
    obtain ⟨off, n1, n2⟩ := readName_ok v4 (by
      split
      · omega
      · rename_i hd
        have := (v5 hd).2.1
        omega)
    rw [n1, R.ok_bind]
    simp only
    rw [residentData_ok hin (fun hd => ?_), R.ok_bind]
    · exact ⟨0, rfl⟩
    · obtain ⟨w1, w2, w3⟩ := v5 hd
      rw [if_neg hd] at n2
      exact ⟨by omega, w2, w3⟩
  | clusters first last allocated size valid unit runs =>
    obtain ⟨v1, v2, v3, v4, v5, v6, v7, v8, v9, v10, v11, v12, v13, bytes, junk, v14, v15⟩ := hv
    rw [v1] at hb8v
    have hb := byte_eq hb8v
    subst hb
    rw [if_neg (by decide)]
    unfold readNonResidentAttr
    rw [slice_rest (by omega), R.ok_bind]
    have hrl : ((record.drop o).drop 16).length = record.length - o - 16 := by rw [List.length_drop, hdl]
    obtain ⟨c, hc⟩ := readUnit_ok (rest := (record.drop o).drop 16) v9 (fun h => by
      rw [hrl]; rw [if_neg h] at v11; omega)
    unfold readNonResident
    rw [R.require_true (by omega), R.ok_bind, u16_ok (by omega), R.ok_bind, field_drop, field_drop, v5, hc, R.ok_bind]
    simp only
    rw [u64le_field (by omega), R.ok_bind, u64le_field (by omega), R.ok_bind, u16_ok (by omega), R.ok_bind, u64le_field (by omega), R.ok_bind,
      u64le_field (by omega), R.ok_bind, u64le_field (by omega), R.ok_bind]
    simp only [field_drop, Nat.add_zero, Nat.reduceAdd]
    rw [v3, v4, v6, v7, v8, R.pure_eq, R.ok_bind]
    simp only
    have hunit : (if (if unit = 0 then 0 else 2 ^ unit) = 0 then 64 else 72) = if unit = 0 then 64 else 72 := by
      by_cases h0 : unit = 0
      · simp [h0]
      · simp [h0]
    obtain ⟨off, n1, n2⟩ := readName_ok v10 (by omega)
    rw [hunit, n1, R.ok_bind]
    simp only
    rw [R.require_true (by
      constructor
      · rcases n2 with n2 | n2 <;> omega
      · omega), R.ok_bind]
    obtain ⟨n, hn⟩ := readRuns_ok (data := record.drop o) (ro := field record (o + 32) 2) (tail := record.drop (o + length)) v14 v13 (by
      rw [List.drop_drop, ← v15]
      have := List.take_append_drop (length - field record (o + 32) 2) (record.drop (o + field record (o + 32) 2))
      rw [List.drop_drop] at this
      rw [← this]
      unfold bytesAt
      congr 2
      omega) (by omega) (by omega)
    rw [hn, R.ok_bind]
    exact ⟨c, rfl⟩

end Keramics.NtfsFs
