import Verif.Lemmas.ExtDirectory

/-!
# Lemmas: what ext volumes and inodes that are accepted have
-/

namespace Keramics.ExtFs
open Keramics.Spec Keramics.Spec.Ext Keramics.Spec.ExtFs

theorem openFs_sound {U : List Byte} {fs : Fs} (h : openFs U = .ok fs) :
    2048 ≤ U.length ∧ field (super U) 56 2 = 0xef53 ∧ field (super U) 76 4 ≤ 1 ∧ fs.super.incompatible = field (super U) 96 4 ∧ fs.super.inodes = inodes U ∧
      (checksums U = true → field (super U) 373 1 = 1 ∧
        (field (super U) 1020 4 = 0 ∨ field (super U) 1020 4 = (sum 0xffffffff#32 ((super U).take 1020)).toNat)) := by
  unfold openFs at h
  obtain ⟨data, h1, h⟩ := R.bind_eq_ok.1 h
  obtain ⟨s, h2, h⟩ := R.bind_eq_ok.1 h
  obtain ⟨seed, -, h⟩ := R.bind_eq_ok.1 h
  obtain ⟨start, -, h⟩ := R.bind_eq_ok.1 h
  obtain ⟨g, -, h⟩ := R.bind_eq_ok.1 h
  obtain ⟨tree, -, h⟩ := R.bind_eq_ok.1 h
  cases h
  obtain ⟨e1, e2⟩ := readExactAt_eq_ok.1 h1
  have e1 : data = super U := e1
  subst e1
  have hlen : 2048 ≤ U.length := by
    unfold super at e2
    rw [List.length_take, List.length_drop] at e2; omega
  refine ⟨hlen, ?_⟩
  unfold readSuper at h2
  rw [R.require_true e2, R.ok_bind, R.slice_ok (by omega) (by omega), R.ok_bind] at h2
  obtain ⟨_, hsig, h2⟩ := R.bind_eq_ok.1 h2
  rw [u32_ok (by omega), R.ok_bind] at h2
  obtain ⟨_, hrev, h2⟩ := R.bind_eq_ok.1 h2
  rw [u32_ok (by omega), R.ok_bind, u32_ok (by omega), R.ok_bind, u32_ok (by omega), R.ok_bind, u32_ok (by omega), R.ok_bind] at h2
  obtain ⟨blocks, -, h2⟩ := R.bind_eq_ok.1 h2
  obtain ⟨_, -, h2⟩ := R.bind_eq_ok.1 h2
  rw [u32_ok (by omega), R.ok_bind] at h2
  obtain ⟨_, -, h2⟩ := R.bind_eq_ok.1 h2
  rw [u32_ok (by omega), R.ok_bind] at h2
  obtain ⟨_, -, h2⟩ := R.bind_eq_ok.1 h2
  rw [u32_ok (by omega), R.ok_bind] at h2
  obtain ⟨_, -, h2⟩ := R.bind_eq_ok.1 h2
  obtain ⟨mt, -, h2⟩ := R.bind_eq_ok.1 h2
  obtain ⟨wt, -, h2⟩ := R.bind_eq_ok.1 h2
  obtain ⟨is, -, h2⟩ := R.bind_eq_ok.1 h2
  obtain ⟨fm, -, h2⟩ := R.bind_eq_ok.1 h2
  obtain ⟨uuid, -, h2⟩ := R.bind_eq_ok.1 h2
  obtain ⟨label, -, h2⟩ := R.bind_eq_ok.1 h2
  obtain ⟨path, -, h2⟩ := R.bind_eq_ok.1 h2
  obtain ⟨flex, -, h2⟩ := R.bind_eq_ok.1 h2
  obtain ⟨_, -, h2⟩ := R.bind_eq_ok.1 h2
  obtain ⟨_, hcheck, h2⟩ := R.bind_eq_ok.1 h2
  cases h2
  refine ⟨?_, R.require_eq_ok.1 hrev, rfl, rfl, ?_⟩
  · have := R.require_eq_ok.1 hsig
    unfold field
    rw [show List.take 2 (List.drop 56 (super U)) = [0x53#8, 0xef#8] from this]
    rfl
  · intro hc
    unfold checkSuper at hcheck
    rw [if_pos ((bit (m := 0x400) 10 _ rfl).2 hc)] at hcheck
    obtain ⟨b, hb, hbn⟩ := get_field (data := super U) (off := 373) (by omega)
    rw [hb, R.ok_bind] at hcheck
    obtain ⟨_, hb1, hcheck⟩ := R.bind_eq_ok.1 hcheck
    have hb1 := R.require_eq_ok.1 hb1
    rw [u32_ok (by omega), R.ok_bind, R.slice_ok (by omega) (by omega), R.ok_bind, crc_ok, R.ok_bind] at hcheck
    have := R.require_eq_ok.1 hcheck
    rw [complement_sum] at this
    refine ⟨by rw [← hbn, hb1]; rfl, ?_⟩
    simpa using this

theorem unsupported_iff (v : Nat) : v &&& (0xffffffff - 0x3a6ce) ≠ 0 ↔ ∃ k, k < 32 ∧ v.testBit k = true ∧ k ∉ [1, 2, 3, 6, 7, 9, 10, 13, 15, 16, 17] := by
  rw [and_ne_zero]
  have key : ∀ k, (0xffffffff - 0x3a6ce : Nat).testBit k = true ↔ k < 32 ∧ k ∉ [1, 2, 3, 6, 7, 9, 10, 13, 15, 16, 17] := by
    intro k
    by_cases hk : k < 32
    · have : ∀ k, k < 32 → ((0xffffffff - 0x3a6ce : Nat).testBit k = true ↔ k < 32 ∧ k ∉ [1, 2, 3, 6, 7, 9, 10, 13, 15, 16, 17]) := by decide +kernel
      exact this k hk
    · have : (0xffffffff - 0x3a6ce : Nat).testBit k = false :=
        Nat.testBit_lt_two_pow (Nat.lt_of_lt_of_le (show 0xffffffff - 0x3a6ce < 2 ^ 32 by decide) (Nat.pow_le_pow_right (by omega) (by omega)))
      rw [this]
      simp [hk]
  constructor
  · rintro ⟨k, h1, h2⟩
    obtain ⟨a, b⟩ := (key k).1 h2
    exact ⟨k, a, h1, b⟩
  · rintro ⟨k, a, h1, b⟩
    exact ⟨k, h1, (key k).2 ⟨a, b⟩⟩

/-- The checksum of an inode as it is read. -/
theorem readInode_checksum {d : List Byte} {i : Inode} (hl : d.length = 128 ∨ 256 ≤ d.length) (h : readInode 4 d = .ok i) :
    i.checksum = field d 124 2 + if 128 < d.length ∧ 4 ≤ extraSize d then 2 ^ 16 * field d 130 2 else 0 := by
  unfold readInode at h
  obtain ⟨b, hb, h⟩ := R.bind_eq_ok.1 h
  have hbc : b.checksum = field d 124 2 := by
    unfold readBase at hb
    obtain ⟨_, -, hb⟩ := R.bind_eq_ok.1 hb
    obtain ⟨_, -, hb⟩ := R.bind_eq_ok.1 hb
    obtain ⟨_, -, hb⟩ := R.bind_eq_ok.1 hb
    obtain ⟨_, -, hb⟩ := R.bind_eq_ok.1 hb
    obtain ⟨_, -, hb⟩ := R.bind_eq_ok.1 hb
    obtain ⟨_, -, hb⟩ := R.bind_eq_ok.1 hb
    obtain ⟨_, -, hb⟩ := R.bind_eq_ok.1 hb
    obtain ⟨_, -, hb⟩ := R.bind_eq_ok.1 hb
    obtain ⟨_, -, hb⟩ := R.bind_eq_ok.1 hb
    obtain ⟨_, -, hb⟩ := R.bind_eq_ok.1 hb
    obtain ⟨_, -, hb⟩ := R.bind_eq_ok.1 hb
    obtain ⟨_, -, hb⟩ := R.bind_eq_ok.1 hb
    obtain ⟨_, -, hb⟩ := R.bind_eq_ok.1 hb
    obtain ⟨_, -, hb⟩ := R.bind_eq_ok.1 hb
    obtain ⟨_, -, hb⟩ := R.bind_eq_ok.1 hb
    obtain ⟨c, hc, hb⟩ := R.bind_eq_ok.1 hb
    cases hb
    unfold checksumAt at hc
    rw [if_pos rfl, u16_ok (by omega)] at hc
    cases hc; rfl
  by_cases h128 : 128 < d.length
  · rw [if_pos h128] at h
    unfold readExtension at h
    have hext : u16le (d.drop 128) 0 = .ok (extraSize d) := by
      rw [u16_ok (by rw [List.length_drop]; omega), field_drop]
      unfold extraSize
      rw [if_pos h128]
    rw [hext, R.ok_bind] at h
    obtain ⟨c, hc, h⟩ := R.bind_eq_ok.1 h
    obtain ⟨_, -, h⟩ := R.bind_eq_ok.1 h
    obtain ⟨_, -, h⟩ := R.bind_eq_ok.1 h
    obtain ⟨_, -, h⟩ := R.bind_eq_ok.1 h
    obtain ⟨_, -, h⟩ := R.bind_eq_ok.1 h
    obtain ⟨_, -, h⟩ := R.bind_eq_ok.1 h
    cases h
    unfold upperChecksum at hc
    by_cases h4 : 4 ≤ extraSize d
    · rw [decide_eq_true h4, if_pos rfl, u16_ok (by rw [List.length_drop]; omega), R.ok_bind, field_drop, hbc] at hc
      cases hc
      rw [if_pos ⟨h128, h4⟩, Nat.or_comm, or_shift 16 (field_lt _ _ _)]
    · rw [decide_eq_false h4, if_neg (by simp)] at hc
      cases hc
      rw [if_neg (fun hx => h4 hx.2)]; exact hbc
  · rw [if_neg h128] at h
    cases h
    rw [if_neg (fun hx => h128 hx.1)]; exact hbc

theorem checkInode_sound {U d : List Byte} {n stored : Nat} (hl : d.length = 128 ∨ 256 ≤ d.length) (h : checkInode (some (~~~ seed U)) n d stored = .ok ()) :
    stored = 0 ∨ stored = if 128 < d.length then inodeSum U n d else inodeSum U n d % 2 ^ 16 := by
  unfold checkInode at h
  simp only at h
  have hpieces : extensionPieces d = .ok (if 128 < d.length then [(d.drop 128).take 2, [0#8, 0#8], d.drop 132] else []) := by
    unfold extensionPieces
    by_cases h128 : 128 < d.length
    · rw [if_pos h128, if_pos h128, R.slice_ok (by omega) (by omega), R.ok_bind, R.slice_ok (by omega) (by omega), R.ok_bind]
      rw [show List.take (d.length - 132) (d.drop 132) = d.drop 132 from List.take_of_length_le (by rw [List.length_drop])]
      rfl
    · rw [if_neg h128, if_neg h128]
  rw [hpieces, R.ok_bind, R.slice_ok (by omega) (by omega), R.ok_bind, R.slice_ok (by omega) (by omega), R.ok_bind, R.slice_ok (by omega) (by omega), R.ok_bind, crc_ok, R.ok_bind] at h
  have h := R.require_eq_ok.1 h
  rw [complement_sum, BitVec.not_not] at h
  have hsum : (sum (seed U) ([leBytes 4 n, List.take (104 - 100) (List.drop 100 d), List.take (124 - 0) (List.drop 0 d), [0#8, 0#8],
      List.take (128 - 126) (List.drop 126 d)] ++ if 128 < d.length then [(d.drop 128).take 2, [0#8, 0#8], d.drop 132] else []).flatten).toNat = inodeSum U n d := by
    unfold inodeSum
    congr 2
    by_cases h128 : 128 < d.length
    · rw [if_pos h128, if_pos h128]; simp
    · rw [if_neg h128, if_neg h128]; simp
  rw [hsum] at h
  by_cases h128 : 128 < d.length
  · rw [if_pos h128]; rw [if_neg (by omega)] at h; exact h
  · rw [if_neg h128]; rw [if_pos (by omega)] at h; exact h

/-- Inodes that are accepted have the right checksum or none. -/
theorem getInode_sound {U : List Byte} (h : Valid U) (hh : Handled U) (hU : U.length < 2 ^ 63) {fs : Fs} (hfs : FsOk U fs) {n : Nat} (h1 : 1 ≤ n) (h2 : n ≤ inodes U)
    {r : Inode × List Ext.Range} (hg : getInode U fs n = .ok r) (hc : checksums U = true) :
    (field (inode U n) 124 2 + if 128 < inodeSize U ∧ 4 ≤ extraSize (inode U n) then 2 ^ 16 * field (inode U n) 130 2 else 0) = 0 ∨
    (field (inode U n) 124 2 + if 128 < inodeSize U ∧ 4 ≤ extraSize (inode U n) then 2 ^ 16 * field (inode U n) 130 2 else 0) =
      if 128 < inodeSize U then inodeSum U n (inode U n) else inodeSum U n (inode U n) % 2 ^ 16 := by
  have hin := inode_inside h h1 h2
  have hlen := inode_length h h1 h2
  have hsz : (inode U n).length = 128 ∨ 256 ≤ (inode U n).length := by
    rw [hlen]
    have := h.inodeSizes
    simp only [List.mem_cons, List.not_mem_nil, or_false] at this
    omega
  have hoff := inodeOffset_ok h hU hfs h1 h2
  unfold getInode at hg
  rw [hoff, R.ok_bind, hfs.super] at hg
  have hg : (do
    let data ← readExactAt U _ (inodeSize U)
    let i ← readInode (version (expected U)) data
    checkInode fs.seed n data i.checksum
    let ranges ← readReference U (version (expected U)) (blockSize U) i
    return (i, ranges)) = R.ok r := hg
  rw [readExactAt_ok hin, R.ok_bind, show (U.drop _).take (inodeSize U) = inode U n from rfl] at hg
  obtain ⟨i, hi, hg⟩ := R.bind_eq_ok.1 hg
  obtain ⟨_, hk, -⟩ := R.bind_eq_ok.1 hg
  rw [(version_ok U).2 (hh.ext4 hc)] at hi
  rw [hfs.seed, if_pos hc] at hk
  have := checkInode_sound hsz hk
  rw [readInode_checksum hsz hi, hlen] at this
  exact this

end Keramics.ExtFs
