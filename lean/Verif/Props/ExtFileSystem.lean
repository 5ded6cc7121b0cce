import Verif.Lemmas.ExtChecked

/-!
# Property theorems: ext volumes and inodes (C58), directories, paths and contents (C59)
-/

namespace Keramics.Props
open Keramics.Spec Keramics.Spec.Ext Keramics.Spec.ExtFs Keramics.ExtFs

/-! ## A sample volume -/

namespace ExtSample

def zeros (n : Nat) : List Byte := List.replicate n 0#8
def pad (n : Nat) (l : List Byte) : List Byte := l ++ zeros (n - l.length)

/-- A superblock: 8 inodes, blocks of 1024 bytes, the label "data". -/
def superblock (blocks perGroup revision inodeSize incompat ro : Nat) : List Byte :=
  [leBytes 4 8, leBytes 4 blocks, zeros 12, leBytes 4 1, zeros 8, leBytes 4 perGroup, zeros 4, leBytes 4 8, zeros 12,
    leBytes 2 0xef53, zeros 18, leBytes 4 revision, zeros 8, leBytes 2 inodeSize, zeros 6, leBytes 4 incompat, leBytes 4 ro, zeros 16,
    [0x64#8, 0x61#8, 0x74#8, 0x61#8], zeros 900].flatten

def inodeBytes (mode size links flags upper : Nat) (reference extra : List Byte) : List Byte :=
  [leBytes 2 mode, leBytes 2 0x1234, leBytes 4 size, leBytes 4 0x5f000000, leBytes 4 0x5f000001, leBytes 4 0x5f000002, leBytes 4 0, leBytes 2 100,
    leBytes 2 links, leBytes 4 2, leBytes 4 flags, leBytes 4 0, pad 60 reference, leBytes 4 0, leBytes 4 0, leBytes 4 upper, zeros 16, extra].flatten

/-- A volume with the inode table in block 3. -/
def build (superblock : List Byte) (inodes : List (List Byte)) (rest : List Byte) : List Byte :=
  zeros 1024 ++ (superblock ++ (zeros 8 ++ (leBytes 4 3 ++ (zeros 1012 ++ (pad 1024 inodes.flatten ++ rest)))))

/-- The root directory: ".", "..", "file", an entry that is not used, and "a". -/
def entries : List Record :=
  [⟨2, 2, [0x2e#8], zeros 3⟩, ⟨2, 2, [0x2e#8, 0x2e#8], zeros 2⟩, ⟨3, 1, [0x66#8, 0x69#8, 0x6c#8, 0x65#8], []⟩, ⟨0, 0, [0x00#8, 0x01#8], []⟩,
    ⟨4, 7, [0x61#8], zeros 969⟩]

def extents : List Byte := header 1 4 0 0 ++ (Extent.bytes ⟨0, 1, 5, true⟩)

/-- Inode 2 is the root directory in block 4, inode 3 a file with an extent in block 5, inode 4 a link,
inode 5 a device. -/
def volume : List Byte := build (superblock 6 8192 1 128 0x42 2)
  [zeros 128, inodeBytes 0x41ed 1024 2 0 0 (leBytes 4 4) [], inodeBytes 0x81a4 5 1 0x80000 0 extents [], inodeBytes 0xa1ff 4 1 0 0 [0x66#8, 0x69#8, 0x6c#8, 0x65#8] [],
    inodeBytes 0x21b6 0 1 0 0 [3#8, 1#8] []]
  (entries.flatMap Record.bytes ++ pad 1024 [0x68#8, 0x65#8, 0x6c#8, 0x6c#8, 0x6f#8])

theorem length : volume.length = 6144 := by decide +kernel

theorem groups_one : groups volume = 1 := by decide +kernel

theorem checksums_false : checksums volume = false := by decide +kernel

theorem valid : Valid volume where
  length := by decide +kernel
  signature := by decide +kernel
  revision := by decide +kernel
  exponent := by decide +kernel
  first := by decide +kernel
  some_ := by decide +kernel
  complete := by decide +kernel
  groupPos := by decide +kernel
  inodesPos := by decide +kernel
  inodeCount := by decide +kernel
  inodeSizes := by decide +kernel
  superSum := by rw [checksums_false]; simp
  tables := by
    rw [groups_one, checksums_false]
    intro k hk _
    have : k = 0 := by omega
    subst this
    exact ⟨by decide +kernel, by simp⟩
  inodeTables := by
    rw [groups_one]
    intro g hg
    have : g = 0 := by omega
    subst this
    decide +kernel

theorem handled : Handled volume where
  count := by decide +kernel
  many := by decide +kernel
  inodeBytes := by decide +kernel
  descriptorBytes := by decide +kernel
  flex := by decide +kernel
  features := by
    intro k hk
    have hv : field (super volume) 96 4 = 0x42 := by decide +kernel
    unfold incompat at hk
    rw [hv] at hk
    have hlt : k < 7 := by
      by_contra hc
      rw [Nat.testBit_lt_two_pow (Nat.lt_of_lt_of_le (show 0x42 < 2 ^ 7 by decide) (Nat.pow_le_pow_right (by omega) (by omega)))] at hk
      cases hk
    have : ∀ k, k < 7 → Nat.testBit 66 k = true → k ∈ [1, 2, 3, 6, 7, 9, 10, 13, 15, 16, 17] := by decide
    exact this k hlt hk
  sparse := by decide +kernel
  uuid := by
    have : incompat volume 13 = false := by decide +kernel
    unfold seed; rw [this]; rfl
  ext4 := by rw [checksums_false]; simp

def inode2 : List Byte := inodeBytes 0x41ed 1024 2 0 0 (leBytes 4 4) []
def inode3 : List Byte := inodeBytes 0x81a4 5 1 0x80000 0 extents []
def inode4 : List Byte := inodeBytes 0xa1ff 4 1 0 0 [0x66#8, 0x69#8, 0x6c#8, 0x65#8] []

theorem inode_2 : inode volume 2 = inode2 := by decide +kernel
theorem inode_3 : inode volume 3 = inode3 := by decide +kernel
theorem inode_4 : inode volume 4 = inode4 := by decide +kernel

/-- The blocks of the root directory. -/
theorem maps2 : Maps volume inode2 (numberBlock volume 1024 (reference inode2)) := by
  have n12 : number (reference inode2) 12 = 0 := by decide +kernel
  have n13 : number (reference inode2) 13 = 0 := by decide +kernel
  have n14 : number (reference inode2) 14 = 0 := by decide +kernel
  have hb : blockSize volume = 1024 := by decide +kernel
  have := Maps.numbers (U := volume) (d := inode2) (by decide +kernel) (by rw [n12]; exact Or.inl rfl) (by rw [n13]; exact Or.inl rfl) (by rw [n14]; exact Or.inl rfl)
    (by
      intro b p h
      rw [hb] at h ⊢
      unfold numberBlock at h
      rw [n12, n13, n14] at h
      by_cases hb : b < 12
      · rw [if_pos hb] at h
        have : ∀ b, b < 12 → (number (reference inode2) b + 1) * 1024 ≤ volume.length := by decide +kernel
        have := this b hb
        unfold resolve at h
        split at h
        · cases h
        · cases h; exact this
      · rw [if_neg hb] at h
        simp [resolve] at h)
  rw [hb] at this
  exact this

/-- The blocks of the file. -/
theorem maps3 : Maps volume inode3 (extentBlock [⟨0, 1, 5, true⟩]) := by
  have hb : blockSize volume = 1024 := by decide +kernel
  refine Maps.extents (depth := 0) (by decide +kernel) (by decide +kernel) (by omega) ?_ ?_ ?_ ?_
  · exact ⟨4, 0, zeros 36, by decide, by decide +kernel⟩
  · intro e he
    rw [List.mem_singleton] at he
    subst he
    simp [Extent.Ok]
  · have : dataBlocks volume inode3 = 1 := by decide +kernel
    rw [this]
    simp [Ordered]
  · intro e he _
    rw [List.mem_singleton] at he
    subst he
    decide +kernel

theorem readable2 : Readable volume 2 := by
  refine ⟨⟨by decide, by decide +kernel, by rw [checksums_false]; simp, by decide +kernel, ?_⟩, [], ?_⟩
  · rw [inode_2]; exact Or.inr (Or.inr (Or.inr ⟨_, maps2⟩))
  · constructor
    · left; decide +kernel
    · rw [checksums_false]; simp
    · decide +kernel
    · decide +kernel
    · decide +kernel
    · intro h
      have : ¬ Short (inode volume 2) := by unfold Short; decide +kernel
      exact absurd h this
    · left; exact ⟨rfl, by decide +kernel⟩
    · simp

theorem readable3 : Readable volume 3 := by
  refine ⟨⟨by decide, by decide +kernel, by rw [checksums_false]; simp, by decide +kernel, ?_⟩, [], ?_⟩
  · rw [inode_3]; exact Or.inr (Or.inr (Or.inr ⟨_, maps3⟩))
  · constructor
    · left; decide +kernel
    · rw [checksums_false]; simp
    · decide +kernel
    · decide +kernel
    · decide +kernel
    · intro h
      have : ¬ Short (inode volume 3) := by unfold Short; decide +kernel
      exact absurd h this
    · left; exact ⟨rfl, by decide +kernel⟩
    · simp

theorem readable4 : Readable volume 4 := by
  have hs : Short (inode volume 4) := by unfold Short; decide +kernel
  refine ⟨⟨by decide, by decide +kernel, by rw [checksums_false]; simp, by decide +kernel, Or.inr (Or.inr (Or.inl hs))⟩, [], ?_⟩
  constructor
  · left; decide +kernel
  · rw [checksums_false]; simp
  · decide +kernel
  · decide +kernel
  · decide +kernel
  · intro _; decide +kernel
  · left; exact ⟨rfl, by decide +kernel⟩
  · simp

theorem directory2 : Directory volume (inode volume 2) entries := by
  rw [inode_2]
  have hb : blockSize volume = 1024 := by decide +kernel
  have hd : dataBlocks volume inode2 = 1 := by decide +kernel
  refine ⟨by decide +kernel, Or.inr ⟨by decide +kernel, _, maps2, ?_, [entries], by simp, by rw [hd]; rfl, ?_⟩⟩
  · rw [hd]
    have n12 : number (reference inode2) 12 = 0 := by decide +kernel
    have n13 : number (reference inode2) 13 = 0 := by decide +kernel
    have n14 : number (reference inode2) 14 = 0 := by decide +kernel
    intro b hb
    unfold numberBlock
    rw [n12, n13, n14]
    by_cases h12 : b < 12
    · rw [if_pos h12]
      have : ∀ b, b < 12 → 1 ≤ b → number (reference inode2) b = 0 := by decide +kernel
      rw [this b h12 hb]; rfl
    · rw [if_neg h12]; simp [resolve]
  · intro b h
    have : b = 0 := by simp at h; omega
    subst this
    refine ⟨4, by decide +kernel, ?_, ?_⟩
    · intro r hr
      simp only [entries, List.getElem_cons_zero, List.mem_cons, List.not_mem_nil, or_false] at hr
      rcases hr with rfl | rfl | rfl | rfl | rfl <;> (unfold Record.Ok; decide +kernel)
    · rw [hb, List.getElem_cons_zero]
      clear h
      decide +kernel

/-- A volume with checksums. -/
def sealedSuper : List Byte :=
  let s := (superblock 6 8192 1 128 0x42 0x402).take 373 ++ [1#8] ++ zeros 646
  s ++ leBytes 4 (sum 0xffffffff#32 s).toNat

def sealedSeed : BitVec 32 := sum 0xffffffff#32 ((sealedSuper.drop 104).take 16)

def sealedDescriptor : List Byte :=
  zeros 8 ++ leBytes 4 3 ++ zeros 18 ++ leBytes 2 (sum sealedSeed (leBytes 4 0 ++ zeros 8 ++ leBytes 4 3 ++ zeros 20)).toNat

/-- The symbolic link with its checksum. -/
def sealedInode : List Byte :=
  inode4.take 124 ++ (leBytes 2 (sum sealedSeed (leBytes 4 3 ++ (inode4.drop 100).take 4 ++ inode4)).toNat ++ inode4.drop 126)

def sealed : List Byte :=
  zeros 1024 ++ (sealedSuper ++ (sealedDescriptor ++ (zeros 992 ++ (zeros 256 ++ (sealedInode ++ zeros 2688)))))

theorem sealed_checksums : checksums sealed = true := by decide +kernel

theorem sealed_groups : groups sealed = 1 := by decide +kernel

theorem sealed_seed : seed sealed = uuidSum sealed := by
  have : incompat sealed 13 = false := by decide +kernel
  unfold seed; rw [this]; rfl

theorem sealed_valid : Valid sealed where
  length := by decide +kernel
  signature := by decide +kernel
  revision := by decide +kernel
  exponent := by decide +kernel
  first := by decide +kernel
  some_ := by decide +kernel
  complete := by decide +kernel
  groupPos := by decide +kernel
  inodesPos := by decide +kernel
  inodeCount := by decide +kernel
  inodeSizes := by decide +kernel
  superSum := fun _ => by decide +kernel
  tables := by
    rw [sealed_groups]
    intro k hk _
    have : k = 0 := by omega
    subst this
    refine ⟨by decide +kernel, ?_⟩
    intro _ g hg
    have : g = 0 := by omega
    subst this
    decide +kernel
  inodeTables := by
    rw [sealed_groups]
    intro g hg
    have : g = 0 := by omega
    subst this
    decide +kernel

theorem sealed_handled : Handled sealed where
  count := by decide +kernel
  many := by decide +kernel
  inodeBytes := by decide +kernel
  descriptorBytes := by decide +kernel
  flex := by decide +kernel
  features := by
    intro k hk
    have hv : field (super sealed) 96 4 = 0x42 := by decide +kernel
    unfold incompat at hk
    rw [hv] at hk
    have hlt : k < 7 := by
      by_contra hc
      rw [Nat.testBit_lt_two_pow (Nat.lt_of_lt_of_le (show 0x42 < 2 ^ 7 by decide) (Nat.pow_le_pow_right (by omega) (by omega)))] at hk
      cases hk
    have : ∀ k, k < 7 → Nat.testBit 66 k = true → k ∈ [1, 2, 3, 6, 7, 9, 10, 13, 15, 16, 17] := by decide
    exact this k hlt hk
  sparse := by decide +kernel
  uuid := sealed_seed
  ext4 := fun _ => Or.inr (Or.inl ⟨6, by simp, by decide +kernel⟩)

theorem sealed_readable : Readable sealed 3 := by
  have hs : Short (inode sealed 3) := by unfold Short; decide +kernel
  refine ⟨⟨by decide, by decide +kernel, fun _ => by decide +kernel, by decide +kernel, Or.inr (Or.inr (Or.inl hs))⟩, [], ?_⟩
  constructor
  · left; decide +kernel
  · intro _; decide +kernel
  · decide +kernel
  · decide +kernel
  · decide +kernel
  · intro _; decide +kernel
  · left; exact ⟨rfl, by decide +kernel⟩
  · simp

end ExtSample

/-! ## C58: volumes and inodes -/

/-- C58, what holds: a sound volume within the restrictions of `Handled` can be opened, the label and the other data of the superblock are those stored, and every
sound inode within the restrictions of `FileHandled` gives a file entry with the values stored. Missing: volumes and inodes beyond the restrictions, see
`C58_violated_groups`, `C58_violated_revision`, `C58_violated_size` and `C58_violated_times`; times before 1970 and creation times after 2038 (not set); the
upper part of device numbers; the names and values of attributes. -/
theorem C58_inode_partial (U : List Byte) (hv : Valid U) (hh : Handled U) (hU : U.length < 2 ^ 63) :
    ∃ fs, openFs U = .ok fs ∧
      fs.super.inodes = inodes U ∧ fs.super.blocks = blocks U ∧ fs.super.blockSize = blockSize U ∧
      volumeLabel fs = (if text (((super U).drop 120).take 16) = [] then none else some (text (((super U).drop 120).take 16))) ∧
      fs.super.mountPath = text (((super U).drop 136).take 64) ∧
      fs.super.mountTime = signed (field (super U) 44 4) ∧ fs.super.writtenTime = signed (field (super U) 48 4) ∧
      (version fs.super = 4 ↔ Ext4 U) ∧
      ∀ n attributes, File U n → FileHandled U n attributes → ∃ e, byIdentifier U fs n = .ok e ∧
        e.number = n ∧ e.name = none ∧
        e.inode.mode = field (inode U n) 0 2 ∧
        e.inode.owner = field (inode U n) 2 2 + 2 ^ 16 * field (inode U n) 120 2 ∧
        e.inode.group = field (inode U n) 24 2 + 2 ^ 16 * field (inode U n) 122 2 ∧
        e.inode.links = field (inode U n) 26 2 ∧
        size e = (if kind (inode U n) = 8 ∨ kind (inode U n) = 10 then dataSize (inode U n) else 0) ∧
        isDirectory e = decide (kind (inode U n) = 4) ∧
        e.inode.access.value = (if 0 < (time (inode U n) 8 140).1 then some (time (inode U n) 8 140) else none) ∧
        e.inode.change.value = (if 0 < (time (inode U n) 12 132).1 then some (time (inode U n) 12 132) else none) ∧
        e.inode.modification.value = (if 0 < (time (inode U n) 16 136).1 then some (time (inode U n) 16 136) else none) ∧
        e.inode.deletion.value = (if 0 < signed (field (inode U n) 20 4) then some (signed (field (inode U n) 20 4), 0) else none) ∧
        e.inode.creation.bind Time.value =
          (if 24 ≤ extraSize (inode U n) ∧ 0 < signed (field (inode U n) 144 4) then some (time (inode U n) 144 148) else none) ∧
        e.inode.attributes = attributes.length := by
  obtain ⟨fs, e, hfs⟩ := openFs_ok hv hh hU
  refine ⟨fs, e, by rw [hfs.super]; rfl, by rw [hfs.super]; rfl, by rw [hfs.super]; rfl, by unfold volumeLabel; rw [hfs.super]; rfl, by rw [hfs.super]; rfl,
    by rw [hfs.super]; rfl, by rw [hfs.super]; rfl, by rw [hfs.super]; exact version_ok U, ?_⟩
  intro n l hf hfh
  obtain ⟨e, e1, e2⟩ := byIdentifier_ok hv hh hU hfs hf hfh
  have hi := e2.inode
  refine ⟨e, e1, e2.number, e2.name, hi.mode, hi.owner, hi.group, hi.links, ?_, ?_, hi.access, hi.change, hi.modification, hi.deletion, hi.creation, hi.attributes⟩
  · unfold size
    rw [hi.mode, hi.size]
    have h8 : field (inode U n) 0 2 &&& 0xf000 = 0x8000 ↔ _ := mode_kind (d := inode U n) 8
    have h10 : field (inode U n) 0 2 &&& 0xf000 = 0xa000 ↔ _ := mode_kind (d := inode U n) 10
    by_cases hk : kind (inode U n) = 8 ∨ kind (inode U n) = 10
    · rw [if_pos hk, if_pos (hk.imp h8.2 h10.2)]
    · rw [if_neg hk, if_neg (fun hc => hk (hc.imp h8.1 h10.1))]
  · have := isDirectory_ok e2
    by_cases hk : kind (inode U n) = 4
    · rw [this.2 hk, decide_eq_true hk]
    · rw [decide_eq_false hk]
      cases hd : isDirectory e with
      | false => rfl
      | true => exact absurd (this.1 hd) hk

example : Valid ExtSample.volume ∧ Handled ExtSample.volume ∧ ExtSample.volume.length < 2 ^ 63 ∧
    (File ExtSample.volume 3 ∧ ∃ l, FileHandled ExtSample.volume 3 l) ∧ dataSize (inode ExtSample.volume 3) = 5 ∧ time (inode ExtSample.volume 3) 8 140 = (0x5f000000, 0) :=
  ⟨ExtSample.valid, ExtSample.handled, by rw [ExtSample.length]; decide, ExtSample.readable3, by decide +kernel, by decide +kernel⟩

/-- C58: if a volume is opened, its superblock has the signature and a known revision, and with checksums the superblock has the right one or none. If it has a
feature that is not implemented no file entry is given, neither is one for a number that is not that of an inode. -/
theorem C58_refused (U : List Byte) (fs : Fs) (h : openFs U = .ok fs) :
    2048 ≤ U.length ∧ field (super U) 56 2 = 0xef53 ∧ field (super U) 76 4 ≤ 1 ∧
    (checksums U = true → field (super U) 373 1 = 1 ∧
      (field (super U) 1020 4 = 0 ∨ field (super U) 1020 4 = (sum 0xffffffff#32 ((super U).take 1020)).toNat)) ∧
    (∀ k, incompat U k = true → k ∉ [1, 2, 3, 6, 7, 9, 10, 13, 15, 16, 17] → ∀ n, byIdentifier U fs n = .err) ∧
    (∀ n, n = 0 ∨ inodes U < n → byIdentifier U fs n = .err) := by
  obtain ⟨h1, h2, h3, h4, h5, h6⟩ := openFs_sound h
  refine ⟨h1, h2, h3, h6, ?_, ?_⟩
  · intro k hk hn n
    unfold byIdentifier
    rw [R.require_false, R.err_bind]
    unfold unsupported
    have hlt : k < 32 := by
      by_contra hc
      unfold incompat at hk
      rw [Nat.testBit_lt_two_pow (Nat.lt_of_lt_of_le (show field (super U) 96 4 < 2 ^ 32 from field_lt (super U) 96 4) (Nat.pow_le_pow_right (by omega) (by omega)))] at hk
      cases hk
    rw [h4, decide_eq_true ((unsupported_iff _).2 ⟨k, hlt, hk, hn⟩)]
    simp
  · intro n hn
    unfold byIdentifier
    by_cases hu : unsupported fs.super = false
    · rw [R.require_true hu, R.ok_bind, R.require_false (by rw [h5]; exact fun hc => hc hn), R.err_bind]
    · rw [R.require_false hu, R.err_bind]

/-- The sample volume with a feature that is not implemented (compression). -/
example : ∃ U fs, openFs U = .ok fs ∧ incompat U 0 = true := by
  have : ∃ fs, openFs (ExtSample.build (ExtSample.superblock 6 8192 1 128 0x43 2) [] (ExtSample.zeros 2048)) = .ok fs := by
    cases h : openFs (ExtSample.build (ExtSample.superblock 6 8192 1 128 0x43 2) [] (ExtSample.zeros 2048)) with
    | ok fs => exact ⟨fs, rfl⟩
    | err =>
      have : (do let _ ← openFs (ExtSample.build (ExtSample.superblock 6 8192 1 128 0x43 2) [] (ExtSample.zeros 2048)); return 1 : R Nat) = .ok 1 := by decide +kernel
      rw [h] at this; cases this
    | panic =>
      have : (do let _ ← openFs (ExtSample.build (ExtSample.superblock 6 8192 1 128 0x43 2) [] (ExtSample.zeros 2048)); return 1 : R Nat) = .ok 1 := by decide +kernel
      rw [h] at this; cases this
  obtain ⟨fs, h⟩ := this
  exact ⟨_, fs, h, by decide +kernel⟩

/-- C58: with checksums, an inode whose stored checksum is neither 0 nor the right one gives no file entry. -/
theorem C58_checked_partial (U : List Byte) (hv : Valid U) (hh : Handled U) (hU : U.length < 2 ^ 63) (hc : checksums U = true) :
    ∃ fs, openFs U = .ok fs ∧ ∀ n e, byIdentifier U fs n = .ok e →
      1 ≤ n ∧ n ≤ inodes U ∧
      (field (inode U n) 124 2 + if 128 < inodeSize U ∧ 4 ≤ extraSize (inode U n) then 2 ^ 16 * field (inode U n) 130 2 else 0) ∈
        [0, if 128 < inodeSize U then inodeSum U n (inode U n) else inodeSum U n (inode U n) % 2 ^ 16] := by
  obtain ⟨fs, e, hfs⟩ := openFs_ok hv hh hU
  refine ⟨fs, e, ?_⟩
  intro n e hn
  unfold byIdentifier at hn
  obtain ⟨_, -, hn⟩ := R.bind_eq_ok.1 hn
  obtain ⟨_, hr, hn⟩ := R.bind_eq_ok.1 hn
  have hr := R.require_eq_ok.1 hr
  rw [hfs.super] at hr
  have hr : ¬ (n = 0 ∨ inodes U < n) := hr
  obtain ⟨r, hg, -⟩ := R.bind_eq_ok.1 hn
  have := getInode_sound hv hh hU hfs (by omega) (by omega) hg hc
  refine ⟨by omega, by omega, ?_⟩
  simp only [List.mem_cons, List.not_mem_nil, or_false]
  exact this

example : Valid ExtSample.sealed ∧ Handled ExtSample.sealed ∧ ExtSample.sealed.length < 2 ^ 63 ∧ checksums ExtSample.sealed = true ∧
    ∃ fs e, openFs ExtSample.sealed = .ok fs ∧ byIdentifier ExtSample.sealed fs 3 = .ok e := by
  have hl : ExtSample.sealed.length < 2 ^ 63 := by decide +kernel
  refine ⟨ExtSample.sealed_valid, ExtSample.sealed_handled, hl, ExtSample.sealed_checksums, ?_⟩
  obtain ⟨fs, h1, -, -, -, -, -, -, -, -, h2⟩ := C58_inode_partial ExtSample.sealed ExtSample.sealed_valid ExtSample.sealed_handled hl
  obtain ⟨hf, l, hfh⟩ := ExtSample.sealed_readable
  obtain ⟨e, h3, -⟩ := h2 3 l hf hfh
  exact ⟨fs, e, h1, h3⟩

/-- C58 does not hold in general: volumes with 1 KiB blocks whose last group is full, here 8 blocks in one group after the first block. The code counts two
groups, and fails. -/
theorem C58_violated_groups : ∃ U, Valid U ∧ groups U = 1 ∧ openFs U = .err := by
  refine ⟨ExtSample.build (ExtSample.superblock 9 8 1 128 0x42 2) [] (ExtSample.zeros 5120), ?_, by decide +kernel, ?_⟩
  · have hg : groups (ExtSample.build (ExtSample.superblock 9 8 1 128 0x42 2) [] (ExtSample.zeros 5120)) = 1 := by decide +kernel
    have hc : checksums (ExtSample.build (ExtSample.superblock 9 8 1 128 0x42 2) [] (ExtSample.zeros 5120)) = false := by decide +kernel
    constructor
    · decide +kernel
    · decide +kernel
    · decide +kernel
    · decide +kernel
    · decide +kernel
    · decide +kernel
    · decide +kernel
    · decide +kernel
    · decide +kernel
    · decide +kernel
    · decide +kernel
    · rw [hc]; simp
    · rw [hg, hc]
      intro k hk _
      have : k = 0 := by omega
      subst this
      exact ⟨by decide +kernel, by simp⟩
    · rw [hg]
      intro g hg
      have : g = 0 := by omega
      subst this
      decide +kernel
  · cases h : openFs (ExtSample.build (ExtSample.superblock 9 8 1 128 0x42 2) [] (ExtSample.zeros 5120)) with
    | err => rfl
    | ok fs =>
      have : (do let _ ← openFs (ExtSample.build (ExtSample.superblock 9 8 1 128 0x42 2) [] (ExtSample.zeros 5120)); return 1 : R Nat) = .err := by decide +kernel
      rw [h] at this; cases this
    | panic =>
      have : (do let _ ← openFs (ExtSample.build (ExtSample.superblock 9 8 1 128 0x42 2) [] (ExtSample.zeros 5120)); return 1 : R Nat) = .err := by decide +kernel
      rw [h] at this; cases this

/-- C58 does not hold in general: opening a volume of revision 0, where the field with the size of inodes is not used, panics. -/
theorem C58_violated_revision : ∃ U, Valid U ∧ field (super U) 76 4 = 0 ∧ openFs U = .panic := by
  refine ⟨ExtSample.build (ExtSample.superblock 6 8192 0 0 0 0) [] (ExtSample.zeros 2048), ?_, by decide +kernel, ?_⟩
  · have hg : groups (ExtSample.build (ExtSample.superblock 6 8192 0 0 0 0) [] (ExtSample.zeros 2048)) = 1 := by decide +kernel
    have hc : checksums (ExtSample.build (ExtSample.superblock 6 8192 0 0 0 0) [] (ExtSample.zeros 2048)) = false := by decide +kernel
    constructor
    · decide +kernel
    · decide +kernel
    · decide +kernel
    · decide +kernel
    · decide +kernel
    · decide +kernel
    · decide +kernel
    · decide +kernel
    · decide +kernel
    · decide +kernel
    · decide +kernel
    · rw [hc]; simp
    · rw [hg, hc]
      intro k hk _
      have : k = 0 := by omega
      subst this
      exact ⟨by decide +kernel, by simp⟩
    · rw [hg]
      intro g hg
      have : g = 0 := by omega
      subst this
      decide +kernel
  · cases h : openFs (ExtSample.build (ExtSample.superblock 6 8192 0 0 0 0) [] (ExtSample.zeros 2048)) with
    | panic => rfl
    | ok fs =>
      have : (do let _ ← openFs (ExtSample.build (ExtSample.superblock 6 8192 0 0 0 0) [] (ExtSample.zeros 2048)); return 1 : R Nat) = .panic := by decide +kernel
      rw [h] at this; cases this
    | err =>
      have : (do let _ ← openFs (ExtSample.build (ExtSample.superblock 6 8192 0 0 0 0) [] (ExtSample.zeros 2048)); return 1 : R Nat) = .panic := by decide +kernel
      rw [h] at this; cases this

/-- C58 does not hold in general: without a feature of ext4 the upper part of the size of a regular file is lost, though ext2 and ext3 have it (large files). -/
theorem C58_violated_size : ∃ U, (roCompat U 1 = true ∧ kind (inode U 3) = 8 ∧ dataSize (inode U 3) = 2 ^ 32 + 5) ∧
    (do let fs ← openFs U; let e ← byIdentifier U fs 3; return size e : R Nat) = .ok 5 :=
  ⟨ExtSample.build (ExtSample.superblock 6 8192 1 128 0x2 2) [ExtSample.zeros 256, ExtSample.inodeBytes 0x81a4 5 1 0 1 (leBytes 4 5) []] (ExtSample.zeros 2048),
    by decide +kernel, by decide +kernel⟩

/-- C58 does not hold in general: a creation time after 2038 and a change time before 1970 count as not set. -/
theorem C58_violated_times : ∃ U, (time (inode U 1) 144 148 = (0x90000000, 7) ∧ time (inode U 1) 12 132 = (-1, 0)) ∧
    (do let fs ← openFs U; let e ← byIdentifier U fs 1; return (e.inode.creation, e.inode.change.value) : R (Option Time × Option (Int × Nat))) = .ok (none, none) :=
  ⟨ExtSample.build (ExtSample.superblock 6 8192 1 256 0x42 2)
    [(ExtSample.inodeBytes 0x81a4 0 1 0 0 [] []).take 12 ++ leBytes 4 0xffffffff ++ (ExtSample.inodeBytes 0x81a4 0 1 0 0 [] []).drop 16 ++
      leBytes 2 32 ++ ExtSample.zeros 14 ++ leBytes 4 0x90000000 ++ leBytes 4 29 ++ ExtSample.zeros 104] (ExtSample.zeros 2048),
    by decide +kernel, by decide +kernel⟩

/-! ## C59: directories, paths and contents -/

/-- C59, what holds of directories: the sub file entries of a directory are the used entries other than "." and "..", in the order of their names, each once (the
last if a name is there more than once), each with the file entry of its inode, by index and by name. Missing: directories beyond the restrictions, such as those
with blocks that are not stored, and inode numbers that are not in the volume. -/
theorem C59_directory_partial (U : List Byte) (hv : Valid U) (hh : Handled U) (hU : U.length < 2 ^ 63) (n : Nat) (hn : Readable U n) (records : List Record)
    (hd : Directory U (inode U n) records) :
    ∃ fs e, openFs U = .ok fs ∧ byIdentifier U fs n = .ok e ∧
      (∃ l : List (List Byte × Nat), subCount U fs e = .ok l.length ∧ l.Pairwise (fun a b => a.1 < b.1) ∧
        (∀ name m, (name, m) ∈ l ↔ lookup records name = some m) ∧
        (∀ k (h : k < l.length), Readable U l[k].2 → ∃ e', byIdentifier U fs l[k].2 = .ok e' ∧ subByIndex U fs e k = .ok { e' with name := some l[k].1 }) ∧
        (∀ k, l.length ≤ k → subByIndex U fs e k = .err)) ∧
      (∀ name, lookup records name = none → subByName U fs e name = .ok none) ∧
      (∀ name m, lookup records name = some m → Readable U m → ∃ e', byIdentifier U fs m = .ok e' ∧ subByName U fs e name = .ok (some { e' with name := some name })) := by
  obtain ⟨fs, e1, hfs⟩ := openFs_ok hv hh hU
  obtain ⟨hf, l, hfh⟩ := hn
  obtain ⟨e, e2, he⟩ := byIdentifier_ok hv hh hU hfs hf hfh
  have hsub := subEntries_ok hU hfs (file_length hv hf) he hd
  have hsort : Sorted (records.foldl keep []) := sorted_keep List.Pairwise.nil records
  have hsame : ∀ m name, Readable U m → ∃ e', byIdentifier U fs m = .ok e' ∧ ofEntry U fs (name, m) = .ok { e' with name := some name } := by
    rintro m name ⟨hf, l, hfh⟩
    obtain ⟨e', x1, x2⟩ := byIdentifier_ok hv hh hU hfs hf hfh
    refine ⟨e', x1, ?_⟩
    unfold ofEntry
    rw [x2.read, R.ok_bind, ← x2.number]; rfl
  refine ⟨fs, e, e1, e2, ⟨records.foldl keep [], ?_, hsort, ?_, ?_, ?_⟩, ?_, ?_⟩
  · unfold subCount; rw [hsub]; rfl
  · intro name m
    rw [sorted_find hsort, find_keep (directory_ok hd)]
    simp
  · intro k hk hm
    obtain ⟨e', x1, x2⟩ := hsame _ (records.foldl keep [])[k].1 hm
    refine ⟨e', x1, ?_⟩
    unfold subByIndex
    rw [hsub, R.ok_bind, List.getElem?_eq_getElem hk]
    exact x2
  · intro k hk
    unfold subByIndex
    rw [hsub, R.ok_bind, List.getElem?_eq_none hk]; rfl
  · intro name hl
    unfold subByName
    rw [hsub, R.ok_bind, find_keep (directory_ok hd), hl]; rfl
  · intro name m hl hm
    obtain ⟨e', x1, x2⟩ := hsame m name hm
    refine ⟨e', x1, ?_⟩
    unfold subByName
    rw [hsub, R.ok_bind, find_keep (directory_ok hd), hl]
    show (do return some (← ofEntry U fs (name, m)) : R (Option Entry)) = _
    rw [x2]; rfl

example : Valid ExtSample.volume ∧ Handled ExtSample.volume ∧ Readable ExtSample.volume 2 ∧ Directory ExtSample.volume (inode ExtSample.volume 2) ExtSample.entries ∧
    lookup ExtSample.entries [0x66#8, 0x69#8, 0x6c#8, 0x65#8] = some 3 ∧ Readable ExtSample.volume 3 ∧ lookup ExtSample.entries [0x2e#8] = none :=
  ⟨ExtSample.valid, ExtSample.handled, ExtSample.readable2, ExtSample.directory2, by decide +kernel, ExtSample.readable3, by decide +kernel⟩

/-- C59, what holds of paths: a path from the root directory gives the file entry of the inode it leads to, with the last name of the path, or none if there is
no such file. A path that does not start at the root gives none. -/
theorem C59_path_partial (U : List Byte) (hv : Valid U) (hh : Handled U) (hU : U.length < 2 ^ 63) :
    ∃ fs, openFs U = .ok fs ∧
      (∀ names r, Path U (Readable U) 2 names r → match r with
        | none => byPath U fs ([] :: names) = .ok none
        | some m => ∃ e, byIdentifier U fs m = .ok e ∧ byPath U fs ([] :: names) = .ok (some { e with name := names.getLast? })) ∧
      byPath U fs [] = .ok none ∧ ∀ first rest, first ≠ [] → byPath U fs (first :: rest) = .ok none := by
  obtain ⟨fs, e1, hfs⟩ := openFs_ok hv hh hU
  refine ⟨fs, e1, ?_, rfl, ?_⟩
  · intro names r hp
    have hF : Readable U 2 := by cases hp <;> assumption
    obtain ⟨hf, l, hfh⟩ := hF
    obtain ⟨e, e2, he⟩ := byIdentifier_ok hv hh hU hfs hf hfh
    have hroot : rootEntry U fs = .ok (some e) := by
      unfold rootEntry
      have := hf.last
      rw [hfs.super, if_neg (show ¬ (expected U).inodes = 0 from fun h => by have h : inodes U = 0 := h; omega), e2]; rfl
    have hby : byPath U fs ([] :: names) = walk U fs e names := by
      unfold byPath
      simp only [List.length_nil, ne_eq, not_true_eq_false, if_false]
      rw [hroot, R.ok_bind]
    have hw := walk_ok hv hh hU hfs hp he
    rw [hby]
    cases r with
    | none => exact hw
    | some m =>
      obtain ⟨e', l', w1, w2⟩ := hw
      have hm : Readable U m := by
        clear hby e2 he w1 w2 hroot e1
        generalize 2 = k at hp
        generalize hr : some m = r at hp
        induction hp with
        | here h => cases hr; exact h
        | file => cases hr
        | missing => cases hr
        | step _ _ _ _ ih => exact ih hr
      obtain ⟨hfm, lm, hfhm⟩ := hm
      obtain ⟨em, x1, x2⟩ := byIdentifier_ok hv hh hU hfs hfm hfhm
      refine ⟨em, x1, ?_⟩
      rw [w1]
      have hr := w2.read
      rw [x2.read, R.ok.injEq, Prod.mk.injEq] at hr
      have hname : e'.name = names.getLast? := by
        rw [w2.name]
        split
        · rename_i h; subst h; rfl
        · rfl
      obtain ⟨a, b, c, d⟩ := e'
      obtain ⟨a', b', c', d'⟩ := em
      simp only at hr hname
      have h1 : a = m := w2.number
      have h2 : a' = m := x2.number
      rw [h1, h2, hr.1, hr.2, hname]
  · intro first rest hne
    unfold byPath
    have : first.length ≠ 0 := fun h => hne (List.eq_nil_of_length_eq_zero h)
    simp only
    rw [if_pos this]

example : Path ExtSample.volume (Readable ExtSample.volume) 2 [[0x66#8, 0x69#8, 0x6c#8, 0x65#8]] (some 3) ∧
    Path ExtSample.volume (Readable ExtSample.volume) 2 [[0x66#8, 0x69#8, 0x6c#8, 0x65#8], [0x61#8]] none ∧
    Path ExtSample.volume (Readable ExtSample.volume) 2 [[0x62#8]] none :=
  ⟨.step ExtSample.readable2 ExtSample.directory2 (by decide +kernel) (.here ExtSample.readable3),
    .step ExtSample.readable2 ExtSample.directory2 (by decide +kernel) (.file ExtSample.readable3 (by decide +kernel)),
    .missing ExtSample.readable2 ExtSample.directory2 (by decide +kernel)⟩

/-- C59, what holds of the contents of regular files: every history of reads and seeks on the data stream is one of a stream with the contents of the file. Missing:
inline data of more than 60 bytes, and extents beyond the size. -/
theorem C59_contents_partial (U : List Byte) (hv : Valid U) (hh : Handled U) (hU : U.length < 2 ^ 63) (n : Nat) (hn : Readable U n) (hk : kind (inode U n) = 8)
    (data : List Byte) (hc : Contents U (inode U n) data) (ops : List StreamOp) (hf : dataSize (inode U n) + seekBudget ops < 2 ^ 63) :
    ∃ fs e s tr, openFs U = .ok fs ∧ byIdentifier U fs n = .ok e ∧ dataStream fs e = .ok (some s) ∧
      Stream.run (s.reader U (blockSize U)) ⟨(), 0⟩ ops = .ok tr ∧ tr.map Prod.fst = ops ∧ Trace true data (dataSize (inode U n)) 0 tr := by
  obtain ⟨fs, e1, hfs⟩ := openFs_ok hv hh hU
  obtain ⟨hf', l, hfh⟩ := hn
  obtain ⟨e, e2, he⟩ := byIdentifier_ok hv hh hU hfs hf' hfh
  obtain ⟨s, tr, h1, h2, h3, h4⟩ := dataStream_ok hv hU hfs (file_length hv hf') he hk hc ops hf
  exact ⟨fs, e, s, tr, e1, e2, h1, h2, h3, h4⟩

example : kind (inode ExtSample.volume 3) = 8 ∧ Contents ExtSample.volume (inode ExtSample.volume 3) [0x68#8, 0x65#8, 0x6c#8, 0x6c#8, 0x6f#8] := by
  refine ⟨by decide +kernel, ?_⟩
  have hs : ¬ Short (inode ExtSample.volume 3) := by unfold Short; decide +kernel
  have := Contents.mapped (U := ExtSample.volume) (d := inode ExtSample.volume 3) hs (by decide +kernel) (by rw [ExtSample.inode_3]; exact ExtSample.maps3)
  have hx : contents ExtSample.volume (blockSize ExtSample.volume) (extentBlock [⟨0, 1, 5, true⟩]) (dataBlocks ExtSample.volume (inode ExtSample.volume 3))
      (dataSize (inode ExtSample.volume 3)) = [0x68#8, 0x65#8, 0x6c#8, 0x6c#8, 0x6f#8] := by decide +kernel
  rw [hx] at this
  exact this

/-- C59, what holds of symbolic links: the target is the contents, if it has no zero bytes, is not larger than a block, and is in the inode if and only if it has less
than 60 bytes, with a zero byte after it. Missing: links with other bytes after the target, see `C59_violated_link`. -/
theorem C59_link_partial (U : List Byte) (hv : Valid U) (hh : Handled U) (hU : U.length < 2 ^ 63) (n : Nat) (hn : Readable U n) (hk : kind (inode U n) = 10)
    (data : List Byte) (hc : Contents U (inode U n) data) (hz : 0#8 ∉ data) (hsz : dataSize (inode U n) ≤ blockSize U)
    (hshort : Short (inode U n) → dataSize (inode U n) < 60 ∧ ((reference (inode U n)).drop (dataSize (inode U n))).head? = some 0#8)
    (hlong : ¬ Short (inode U n) → 60 ≤ dataSize (inode U n)) :
    ∃ fs e, openFs U = .ok fs ∧ byIdentifier U fs n = .ok e ∧ linkTarget U fs e = .ok (some data) := by
  obtain ⟨fs, e1, hfs⟩ := openFs_ok hv hh hU
  obtain ⟨hf', l, hfh⟩ := hn
  obtain ⟨e, e2, he⟩ := byIdentifier_ok hv hh hU hfs hf' hfh
  exact ⟨fs, e, e1, e2, linkTarget_ok hv hU hfs he hk hc hz hsz hshort hlong⟩

example : kind (inode ExtSample.volume 4) = 10 ∧ Contents ExtSample.volume (inode ExtSample.volume 4) [0x66#8, 0x69#8, 0x6c#8, 0x65#8] ∧
    dataSize (inode ExtSample.volume 4) = 4 ∧ Short (inode ExtSample.volume 4) ∧ ((reference (inode ExtSample.volume 4)).drop 4).head? = some 0#8 := by
  have hs : Short (inode ExtSample.volume 4) := by unfold Short; decide +kernel
  refine ⟨by decide +kernel, ?_, by decide +kernel, hs, by decide +kernel⟩
  have := Contents.short (U := ExtSample.volume) (d := inode ExtSample.volume 4) hs (by decide +kernel)
  have hx : (reference (inode ExtSample.volume 4)).take (dataSize (inode ExtSample.volume 4)) = [0x66#8, 0x69#8, 0x6c#8, 0x65#8] := by decide +kernel
  rw [hx] at this
  exact this

/-- C59 does not hold in general: the target of a link in the inode is not cut at its size. -/
theorem C59_violated_link : ∃ U, (kind (inode U 3) = 10 ∧ dataSize (inode U 3) = 2 ∧ (reference (inode U 3)).take 2 = [0x61#8, 0x62#8]) ∧
    (do let fs ← openFs U; let e ← byIdentifier U fs 3; linkTarget U fs e : R (Option (List Byte))) = .ok (some [0x61#8, 0x62#8, 0x63#8]) :=
  ⟨ExtSample.build (ExtSample.superblock 6 8192 1 128 0x2 2) [ExtSample.zeros 256, ExtSample.inodeBytes 0xa1ff 2 1 0 0 [0x61#8, 0x62#8, 0x63#8] []] (ExtSample.zeros 2048),
    by decide +kernel, by decide +kernel⟩

/-- C59 does not hold in general: the entries of a directory after a block that is not stored are not given. -/
theorem C59_violated_sparse : ∃ U, (kind (inode U 2) = 4 ∧ numberBlock U (blockSize U) (reference (inode U 2)) 0 = none ∧
      numberBlock U (blockSize U) (reference (inode U 2)) 1 = some 4 ∧ Lists (block U (blockSize U) 4) ExtSample.entries ∧
      lookup ExtSample.entries [0x61#8] = some 4) ∧
    (do let fs ← openFs U; let e ← byIdentifier U fs 2; subCount U fs e : R Nat) = .ok 0 := by
  refine ⟨ExtSample.build (ExtSample.superblock 6 8192 1 128 0x2 2) [ExtSample.zeros 128, ExtSample.inodeBytes 0x41ed 2048 2 0 0 (leBytes 4 0 ++ leBytes 4 4) []]
    (ExtSample.entries.flatMap Record.bytes ++ ExtSample.zeros 1024), ⟨by decide +kernel, by decide +kernel, by decide +kernel, ⟨?_, by decide +kernel⟩, by decide +kernel⟩, by decide +kernel⟩
  intro r hr
  simp only [ExtSample.entries, List.mem_cons, List.not_mem_nil, or_false] at hr
  rcases hr with rfl | rfl | rfl | rfl | rfl <;> (unfold Record.Ok; decide +kernel)

end Keramics.Props
