import Verif.Lemmas.NtfsIndex

/-!
# Records of the MFT that are empty, bad or of another size
-/

namespace Keramics.NtfsFs
open Keramics.Spec Keramics.Spec.Ntfs Keramics.Spec.NtfsFs

theorem slice_start {raw d : List Byte} (h : R.slice raw 0 4 = .ok d) : d = raw.take 4 ∧ 4 ≤ raw.length := by
  unfold R.slice at h
  split at h
  · rename_i hc
    have := R.ok.inj h
    simp only [Nat.sub_zero, List.drop_zero] at this
    exact ⟨this.symm, hc.2⟩
  · cases h

theorem readUsed_signature {raw : List Byte} {e : Entry} (h : readUsed raw = .ok e) :
    raw.take 4 = [0x46#8, 0x49#8, 0x4c#8, 0x45#8] ∧ e.empty = false ∧ e.bad = false ∧ e.allocated = true ∧ field raw 28 4 = raw.length := by
  unfold readUsed at h
  obtain ⟨_, h0, h⟩ := R.bind_eq_ok.1 h
  have h0 := R.require_eq_ok.1 h0
  obtain ⟨s, h1, h⟩ := R.bind_eq_ok.1 h
  obtain ⟨_, h2, h⟩ := R.bind_eq_ok.1 h
  have h2 := R.require_eq_ok.1 h2
  rw [u16_ok (by omega), R.ok_bind, u16_ok (by omega), R.ok_bind, u64le_field (by omega), R.ok_bind, u16_ok (by omega), R.ok_bind, u16_ok (by omega), R.ok_bind,
    u32le_field (by omega), R.ok_bind, u64le_field (by omega), R.ok_bind] at h
  obtain ⟨_, h3, h⟩ := R.bind_eq_ok.1 h
  have h3 := R.require_eq_ok.1 h3
  obtain ⟨-, -, h⟩ := R.bind_eq_ok.1 h
  obtain ⟨-, -, h⟩ := R.bind_eq_ok.1 h
  obtain ⟨-, -, h⟩ := R.bind_eq_ok.1 h
  obtain ⟨d, -, h⟩ := R.bind_eq_ok.1 h
  have h := R.ok.inj h
  refine ⟨by rw [← (slice_start h1).1, h2], ?_, ?_, ?_, h3⟩ <;> rw [← h]

theorem readEntry_signature {raw : List Byte} {e : Entry} (h : readEntry raw = .ok e) :
    (raw.take 4 = [0#8, 0#8, 0#8, 0#8] ∨ raw.take 4 = [0x42#8, 0x41#8, 0x41#8, 0x44#8] ∨ raw.take 4 = [0x46#8, 0x49#8, 0x4c#8, 0x45#8]) ∧
    (e.empty = true ↔ raw.take 4 = [0#8, 0#8, 0#8, 0#8]) ∧ (e.bad = true ↔ raw.take 4 = [0x42#8, 0x41#8, 0x41#8, 0x44#8]) ∧
    (e.allocated = true ↔ raw.take 4 = [0x46#8, 0x49#8, 0x4c#8, 0x45#8]) ∧ (e.allocated = true → field raw 28 4 = raw.length) := by
  unfold readEntry at h
  obtain ⟨s, h1, h⟩ := R.bind_eq_ok.1 h
  obtain ⟨rfl, -⟩ := slice_start h1
  split at h
  · rename_i hs
    rw [← R.ok.inj h, hs]
    simp
  · split at h
    · rename_i hs
      rw [← R.ok.inj h, hs]
      simp
    · obtain ⟨g1, g2, g3, g4, g5⟩ := readUsed_signature h
      rw [g1, g2, g3, g4]
      simp [g5]

theorem getEntry_volume {U : List Byte} {V : Spec.NtfsFs.Volume} {v : Volume} (hV : IsVolume U V) (hU : U.length < 2 ^ 63) (hv : VolumeOk U V v) {n : Nat}
    (hn : n < (mftBytes U V.mft).length / entrySize U) :
    getEntry U v.mft n = readEntry (bytesAt (mftBytes U V.mft) (n * entrySize U) (entrySize U)) := by
  have hent := hV.boot.entry
  exact getEntry_raw hv.mft hV.mft.data hV.mft.whole hent hU hv.bound ((Nat.le_div_iff_mul_le (by omega)).1 hn)

theorem fileByNumber_entry {U : List Byte} {V : Spec.NtfsFs.Volume} {v : Volume} (hV : IsVolume U V) (hU : U.length < 2 ^ 63) (hv : VolumeOk U V v) {n : Nat}
    (hn : n < (mftBytes U V.mft).length / entrySize U) {f : File} (h : fileByNumber U v n = .ok f) :
    readEntry (bytesAt (mftBytes U V.mft) (n * entrySize U) (entrySize U)) = .ok f.entry ∧ ∃ attrs, readAttributes f.entry .empty = .ok attrs := by
  unfold fileByNumber readFile at h
  obtain ⟨-, -, h⟩ := R.bind_eq_ok.1 h
  obtain ⟨e, h1, h⟩ := R.bind_eq_ok.1 h
  obtain ⟨a, h2, h⟩ := R.bind_eq_ok.1 h
  obtain ⟨_, -, h⟩ := R.bind_eq_ok.1 h
  obtain ⟨_, -, h⟩ := R.bind_eq_ok.1 h
  rw [getEntry_volume hV hU hv hn] at h1
  have h := R.ok.inj h
  rw [← h]
  exact ⟨h1, a, h2⟩

/-! ## Records that are refused -/

theorem readAttr_size {data : List Byte} {a : Attr} (h : readAttr data = .ok a) : a.size = field data 4 4 := by
  unfold readAttr at h
  obtain ⟨_, h0, h⟩ := R.bind_eq_ok.1 h
  have h0 := R.require_eq_ok.1 h0
  rw [u32le_field (by omega), R.ok_bind, u32le_field (by omega), R.ok_bind] at h
  obtain ⟨_, -, h⟩ := R.bind_eq_ok.1 h
  obtain ⟨_, -, h⟩ := R.bind_eq_ok.1 h
  obtain ⟨_, -, h⟩ := R.bind_eq_ok.1 h
  obtain ⟨_, -, h⟩ := R.bind_eq_ok.1 h
  obtain ⟨_, -, h⟩ := R.bind_eq_ok.1 h
  split at h
  · unfold readResidentAttr at h
    obtain ⟨_, -, h⟩ := R.bind_eq_ok.1 h
    obtain ⟨_, -, h⟩ := R.bind_eq_ok.1 h
    obtain ⟨_, -, h⟩ := R.bind_eq_ok.1 h
    obtain ⟨_, -, h⟩ := R.bind_eq_ok.1 h
    obtain ⟨_, -, h⟩ := R.bind_eq_ok.1 h
    obtain ⟨_, -, h⟩ := R.bind_eq_ok.1 h
    rw [← R.ok.inj h]
  · unfold readNonResidentAttr at h
    obtain ⟨_, -, h⟩ := R.bind_eq_ok.1 h
    obtain ⟨_, -, h⟩ := R.bind_eq_ok.1 h
    obtain ⟨_, -, h⟩ := R.bind_eq_ok.1 h
    obtain ⟨_, -, h⟩ := R.bind_eq_ok.1 h
    obtain ⟨_, -, h⟩ := R.bind_eq_ok.1 h
    rw [← R.ok.inj h]

theorem readEntry_bad {raw : List Byte} (hs : raw.take 4 = [0x42#8, 0x41#8, 0x41#8, 0x44#8]) : readEntry raw = .ok ⟨raw, 0, 0, 0, 0, false, true, false⟩ := by
  have hl : 4 ≤ raw.length := by
    have := congrArg List.length hs
    simp at this
    omega
  unfold readEntry
  rw [slice_bytesAt' (n := 4) rfl (by omega), R.ok_bind]
  have : bytesAt raw 0 4 = raw.take 4 := by simp [bytesAt]
  rw [this, hs, if_neg (by decide), if_pos rfl]
  rfl

theorem field_four (d : List Byte) (h : 8 ≤ d.length) : field d 4 4 = field d 4 2 + 65536 * field d 6 2 := by
  match d, h with
  | a0 :: a1 :: a2 :: a3 :: a4 :: a5 :: a6 :: a7 :: d, _ =>
    simp only [field, bytesAt, List.drop_succ_cons, List.drop_zero, List.take_succ_cons, List.take_zero, leNat]
    omega

/-- A bad record with update sequence numbers has no attributes that can be read. -/
theorem readAttributes_bad {raw : List Byte} (hl : 42 ≤ raw.length ∧ raw.length ≤ 65535) (hs : raw.take 4 = [0x42#8, 0x41#8, 0x41#8, 0x44#8]) (hc : 0 < field raw 6 2)
    (attrs : Attrs) : readAttributes ⟨raw, 0, 0, 0, 0, false, true, false⟩ .empty ≠ .ok attrs := by
  intro h
  unfold readAttributes at h
  simp only at h
  have hb : bytesAt raw 0 4 = raw.take 4 := by simp [bytesAt]
  rw [show raw.length + 3 = (raw.length + 2) + 1 from rfl, attrsLoop, R.subU_ok (by omega), R.ok_bind, R.require_true (by omega), R.ok_bind,
    slice_bytesAt' (n := 4) rfl (by omega), R.ok_bind, hb, hs, if_neg (by decide), slice_rest (by omega), R.ok_bind, List.drop_zero] at h
  obtain ⟨a, h1, h⟩ := R.bind_eq_ok.1 h
  obtain ⟨attrs', h2, h⟩ := R.bind_eq_ok.1 h
  have hsize := readAttr_size h1
  rw [field_four raw (by omega)] at hsize
  rw [show raw.length + 2 = (raw.length + 1) + 1 from rfl, attrsLoop, R.subU_ok (by omega), R.ok_bind, R.require_false (by omega), R.err_bind] at h
  cases h

theorem readEntry_zero {k : Nat} (hk : 42 ≤ k) : readEntry (List.replicate k 0#8) = .ok ⟨List.replicate k 0#8, 0, 0, 0, 0, true, false, false⟩ := by
  obtain ⟨k, rfl⟩ : ∃ j, k = j + 4 := ⟨k - 4, by omega⟩
  unfold readEntry
  rw [slice_bytesAt' (n := 4) rfl (by simp), R.ok_bind, if_pos (by simp [bytesAt, List.replicate_succ])]
  rfl

theorem field_zero (k o n : Nat) : field (List.replicate k 0#8) o n = 0 := by
  unfold field bytesAt
  rw [List.drop_replicate, List.take_replicate]
  generalize min n (k - o) = j
  induction j with
  | zero => rfl
  | succ j ih => rw [List.replicate_succ, leNat, ih]; rfl

theorem readAttr_zero {k : Nat} (hk : 42 ≤ k) : readAttr (List.replicate k 0#8) = .ok ⟨0, 0, none, 0, 0, 0, 0, 0, [], [], 0#8, 0⟩ := by
  have hl : (List.replicate k 0#8 : List Byte).length = k := List.length_replicate
  obtain ⟨a, ha, hav⟩ := get_ok (data := List.replicate k 0#8) (off := 8) (by omega)
  obtain ⟨b, hb, hbv⟩ := get_ok (data := List.replicate k 0#8) (off := 9) (by omega)
  rw [field_zero] at hav hbv
  obtain rfl : a = 0#8 := byte_eq hav
  unfold readAttr
  rw [R.require_true (by omega), R.ok_bind, u32le_field (by omega), R.ok_bind, u32le_field (by omega), R.ok_bind, ha, R.ok_bind, hb, R.ok_bind,
    u16_ok (by omega), R.ok_bind, u16_ok (by omega), R.ok_bind, field_zero, field_zero, field_zero, field_zero, hbv, R.require_true (by decide), R.ok_bind, if_pos (by decide)]
  unfold readResidentAttr
  have h16 : (List.drop 16 (List.replicate k 0#8 : List Byte)).length = k - 16 := by rw [List.length_drop, hl]
  rw [slice_rest (by omega), R.ok_bind, R.require_true (by omega), R.ok_bind, u32le_field (by omega), R.ok_bind, u16_ok (by omega), R.ok_bind, List.drop_replicate,
    field_zero, field_zero]
  simp only [readName, residentData, Nat.lt_irrefl, if_false, R.ok_bind]
  rfl

/-- A record of zeros has no attributes that can be read: the first is read again and again. -/
theorem readAttributes_zero {k : Nat} (hk : 42 ≤ k) : readAttributes ⟨List.replicate k 0#8, 0, 0, 0, 0, true, false, false⟩ .empty = .err := by
  have hl : (List.replicate k 0#8 : List Byte).length = k := List.length_replicate
  have hm : bytesAt (List.replicate k 0#8) 0 4 ≠ [0xff#8, 0xff#8, 0xff#8, 0xff#8] := by
    obtain ⟨j, rfl⟩ : ∃ j, k = j + 4 := ⟨k - 4, by omega⟩
    simp [bytesAt, List.replicate_succ]
  have step : ∀ fuel attrs, attrsLoop (List.replicate k 0#8) (fuel + 1) 0 attrs =
      (attrs.add ⟨0, 0, none, 0, 0, 0, 0, 0, [], [], 0#8, 0⟩ >>= fun attrs => attrsLoop (List.replicate k 0#8) fuel 0 attrs) := by
    intro fuel attrs
    rw [attrsLoop, hl, R.subU_ok (by omega), R.ok_bind, R.require_true (by omega), R.ok_bind, slice_bytesAt' (n := 4) rfl (by omega), R.ok_bind, if_neg hm]
    have := slice_rest (data := List.replicate k (0#8 : Byte)) (off := 0) (by omega)
    rw [hl] at this
    rw [this, R.ok_bind, List.drop_zero, readAttr_zero hk, R.ok_bind]
    rfl
  unfold readAttributes
  simp only [hl]
  rw [show k + 3 = ((k + 1) + 1) + 1 from rfl, step]
  have : Attrs.empty.add ⟨0, 0, none, 0, 0, 0, 0, 0, [], [], 0#8, 0⟩ = .ok ((Attrs.empty.addName none).push ⟨0, 0, none, 0, 0, 0, 0, 0, [], [], 0#8, 0⟩) := rfl
  rw [this, R.ok_bind, step]
  rfl

end Keramics.NtfsFs
