import Verif.Model.VfsForks
import Verif.Props.ExtFileSystem
import Verif.Props.FatFileSystem
import Verif.Props.NtfsFileSystem

/-!
# Property theorems: data forks and data streams of file entries (C87)
-/

namespace Keramics.Props
open Keramics.Spec Keramics.VfsForks

section Ext
open Keramics.Spec.ExtFs
open Keramics.ExtFs (openFs byIdentifier)

/-- The type of a mode. -/
theorem mode_kind (m : Nat) (hm : m < 2 ^ 16) : m &&& 0xf000 = 0x8000 ↔ m / 2 ^ 12 = 8 := by
  have : m &&& 0xf000 = m / 2 ^ 12 * 2 ^ 12 := by
    apply Nat.eq_of_testBit_eq
    intro i
    have h : (0xf000 : Nat) = (2 ^ 4 - 1) * 2 ^ 12 := by decide
    rw [Nat.testBit_and, h, Nat.testBit_mul_two_pow, Nat.testBit_mul_two_pow, Nat.testBit_two_pow_sub_one, Nat.testBit_div_two_pow]
    by_cases h12 : 12 ≤ i
    · by_cases h16 : i < 16
      · simp [h12, show i - 12 < 4 by omega]
      · have : m.testBit i = false := Nat.testBit_lt_two_pow (Nat.lt_of_lt_of_le hm (Nat.pow_le_pow_right (by omega) (by omega)))
        simp [h12, Nat.sub_add_cancel h12, this]
    · simp [h12]
  omega

theorem count_ext {D : Type} (fs : ExtFs.Fs) (e : ExtFs.Entry) :
    forkCount (.ext fs e : Entry D) = if e.inode.mode &&& 0xf000 ≠ 0x8000 then 0 else 1 := rfl

theorem count_fat {D : Type} (v : FatFs.Volume) (e : FatFs.FileEntry) :
    forkCount (.fat v e : Entry D) = if FatFs.isDirectory e then 0 else 1 := rfl

/-- C87 for ext: a regular file has one data fork without a name, with its contents, every other file has none, and there is no data fork
beyond. Missing: what is missing of C59. -/
theorem C87_ext_partial {D : Type} (U : List Byte) (hv : Valid U) (hh : Handled U) (hU : U.length < 2 ^ 63) (n : Nat) (hn : Readable U n) :
    ∃ fs e, openFs U = .ok fs ∧ byIdentifier U fs n = .ok e ∧
      forkCount (.ext fs e : Entry D) = (if kind (inode U n) = 8 then 1 else 0) ∧
      (∀ i, forkCount (.ext fs e : Entry D) ≤ i → fork U (.ext fs e : Entry D) i = .err) ∧
      (kind (inode U n) ≠ 8 → stream U (.ext fs e : Entry D) = .ok none) ∧
      ∀ data, kind (inode U n) = 8 → Contents U (inode U n) data → ∀ ops : List StreamOp, dataSize (inode U n) + seekBudget ops < 2 ^ 63 →
        ∃ s tr, fork U (.ext fs e : Entry D) 0 = .ok ⟨none, .ok (.ext s)⟩ ∧ stream U (.ext fs e : Entry D) = .ok (some (.ext s)) ∧
          Stream.run (s.reader U (blockSize U)) ⟨(), 0⟩ ops = .ok tr ∧ tr.map Prod.fst = ops ∧ Trace true data (dataSize (inode U n)) 0 tr := by
  obtain ⟨fs, h1, -, -, -, -, -, -, -, -, h2⟩ := C58_inode_partial U hv hh hU
  obtain ⟨attributes, ha⟩ := hn.2
  obtain ⟨e, h3, -, -, hmode, -⟩ := h2 n attributes hn.1 ha
  have hk : (e.inode.mode &&& 0xf000 = 0x8000) ↔ kind (inode U n) = 8 := by
    rw [hmode]
    exact mode_kind _ (Keramics.ExtFs.field_lt _ 0 2)
  have hnone : kind (inode U n) ≠ 8 → ExtFs.dataStream fs e = .ok none := fun h => by
    unfold ExtFs.dataStream
    rw [if_pos (fun hc => h (hk.1 hc))]
  refine ⟨fs, e, h1, h3, ?_, ?_, ?_, ?_⟩
  · rw [count_ext]
    by_cases h : kind (inode U n) = 8
    · rw [if_pos h, if_neg (fun hc => hc (hk.2 h))]
    · rw [if_neg h, if_pos (fun hc => h (hk.1 hc))]
  · intro i hi
    unfold fork
    by_cases h0 : i = 0
    · subst h0
      have h : kind (inode U n) ≠ 8 := fun h => by
        rw [count_ext, if_neg (fun hc => hc (hk.2 h))] at hi
        omega
      simp only
      rw [R.require_true trivial, R.ok_bind, hnone h, R.ok_bind]
      rfl
    · simp only
      rw [R.require_false h0, R.err_bind]
  · intro h
    unfold stream
    simp only
    rw [hnone h]
    rfl
  · intro data h hc ops hops
    obtain ⟨fs', e', s, tr, g1, g2, g3, g4⟩ := C59_contents_partial U hv hh hU n hn h data hc ops hops
    obtain rfl : fs = fs' := by simpa [h1] using g1
    obtain rfl : e = e' := by simpa [h3] using g2
    refine ⟨s, tr, ?_, ?_, g4⟩
    · unfold fork
      simp only
      rw [R.require_true trivial, R.ok_bind, g3, R.ok_bind]
      rfl
    · unfold stream
      simp only
      rw [g3]
      rfl

/-- The hypotheses are met: a regular file has one data fork, a directory none. -/
example : ∃ fs e d, openFs ExtSample.volume = .ok fs ∧ byIdentifier ExtSample.volume fs 3 = .ok e ∧ byIdentifier ExtSample.volume fs 2 = .ok d ∧
    forkCount (.ext fs e : Entry Nat) = 1 ∧ forkCount (.ext fs d : Entry Nat) = 0 ∧ fork ExtSample.volume (.ext fs d : Entry Nat) 0 = .err := by
  have hl : ExtSample.volume.length < 2 ^ 63 := by rw [ExtSample.length]; decide
  obtain ⟨fs, e, h1, h2, h3, -⟩ := C87_ext_partial (D := Nat) _ ExtSample.valid ExtSample.handled hl 3 ExtSample.readable3
  obtain ⟨fs', d, g1, g2, g3, g4, -⟩ := C87_ext_partial (D := Nat) _ ExtSample.valid ExtSample.handled hl 2 ExtSample.readable2
  obtain rfl : fs = fs' := by simpa [h1] using g1
  rw [if_pos (by decide +kernel)] at h3
  rw [if_neg (by decide +kernel)] at g3
  exact ⟨fs, e, d, h1, h2, g2, h3, g3, g4 0 (by omega)⟩

end Ext

section Fat
open Keramics.Spec.FatFs
open Keramics.FatFs (openVolume byPath)

/-- C87 for FAT: a file has one data fork without a name, with its contents, a directory has none, and there is no data fork beyond. Missing: what
is missing of C57. -/
theorem C87_fat_partial {D : Type} (fold : Nat → Option Nat) (hfold : ∀ u, u < 128 → (fold u).getD u = if 97 ≤ u ∧ u ≤ 122 then u - 32 else u)
    (U : List Byte) (hU : U.length < 2 ^ 63) (hv : Valid U) (h1 : (params U).clusters < 4085 → (params U).area < 4085)
    (h2 : (params U).clusters < 65525 → (params U).area < 65525) (root : List FatDir.Stored) (hroot : Root U (reach (params U)) root) :
    ∃ v, openVolume fold U = .ok v ∧ ∀ path f, Path fold U (params U).layout (reach (params U)) root path (some f) →
      ∃ e, byPath fold U v ([] :: path) = .ok (some e) ∧
        (IsDirectory f → forkCount (.fat v e : Entry D) = 0 ∧ stream U (.fat v e : Entry D) = .ok none) ∧
        (¬ IsDirectory f → forkCount (.fat v e : Entry D) = 1) ∧
        (∀ i, forkCount (.fat v e : Entry D) ≤ i → fork U (.fat v e : Entry D) i = .err) ∧
        (¬ IsDirectory f → ∀ chain, FileChain U (params U).layout (reach (params U)) f chain → ∀ ops, f.2.size + seekBudget ops < 2 ^ 63 →
          ∃ tree tr, fork U (.fat v e : Entry D) 0 = .ok ⟨none, .ok (.fat (f.2.size, tree))⟩ ∧ stream U (.fat v e : Entry D) = .ok (some (.fat (f.2.size, tree))) ∧
            Stream.run (Fat.stream U tree f.2.size) ⟨(), 0⟩ ops = .ok tr ∧ tr.map Prod.fst = ops ∧
            Trace true (Fat.contents U (params U).layout.first (params U).layout.clusterSize chain f.2.size) f.2.size 0 tr) := by
  obtain ⟨v, hopen, hp⟩ := C57_path_partial fold hfold U hU hv h1 h2 root hroot
  refine ⟨v, hopen, fun path f hf => ?_⟩
  obtain ⟨e, he, -, -, hd, hn, hs⟩ := hp path (some f) hf
  refine ⟨e, he, ?_, ?_, ?_, ?_⟩
  · intro h
    refine ⟨?_, ?_⟩
    · unfold forkCount
      exact if_pos (hd.2 h)
    · unfold stream
      simp only
      rw [hn h]
      rfl
  · intro h
    unfold forkCount
    exact if_neg (fun hc => h (hd.1 hc))
  · intro i hi
    unfold fork
    by_cases h0 : i = 0
    · subst h0
      have h : IsDirectory f := by
        by_contra h
        rw [count_fat, if_neg (fun hc => h (hd.1 hc))] at hi
        omega
      simp only
      rw [R.require_true trivial, R.ok_bind, hn h, R.ok_bind]
      rfl
    · simp only
      rw [R.require_false h0, R.err_bind]
  · intro h chain hc ops hops
    obtain ⟨tree, tr, g1, g2⟩ := hs h chain hc ops hops
    refine ⟨tree, tr, ?_, ?_, g2⟩
    · unfold fork
      simp only
      rw [R.require_true trivial, R.ok_bind, g1, R.ok_bind]
      rfl
    · unfold stream
      simp only
      rw [g1]
      rfl

/-- The hypotheses are met: a file of two clusters has one data fork. -/
example : ∃ v e, openVolume sampleFold sampleVolume = .ok v ∧ byPath sampleFold sampleVolume v [[], [0x61, 0x2e, 0x74, 0x78, 0x74]] = .ok (some e) ∧
    forkCount (.fat v e : Entry Nat) = 1 ∧ fork sampleVolume (.fat v e : Entry Nat) 1 = .err := by
  obtain ⟨v, h1, h2⟩ := C87_fat_partial (D := Nat) sampleFold sample_fold sampleVolume (by decide +kernel) sample_valid (fun _ => by decide +kernel)
    (fun _ => by decide +kernel) sampleRoot sample_root
  obtain ⟨e, h3, -, h4, h5, -⟩ := h2 [[0x61, 0x2e, 0x74, 0x78, 0x74]] (none, sampleFile) (.here (by rfl))
  have h6 := h4 (by unfold IsDirectory; decide +kernel)
  exact ⟨v, e, h1, h3, h6, h5 1 (by omega)⟩

end Fat

section Ntfs
open Keramics.Spec.NtfsFs Keramics.Spec.Ntfs

/-- C87 for NTFS: the data forks are the `$DATA` streams of the file, in their order and with their names; what a fork opens is what the file
entry gives for its name, and the fork without a name is the default data stream. Missing: what is missing of C62. -/
theorem C87_ntfs_partial {D : Type} (U : List Byte) (V : Volume) (hV : IsVolume U V) (hU : U.length < 2 ^ 63) (n : Nat) (as : List Attribute)
    (h : IsFile U V.mft n as) :
    ∃ v f, NtfsFs.openVolume U = .ok v ∧ NtfsFs.fileByNumber U v n = .ok f ∧
      forkCount (.ntfs v f : Entry D) = (streamNames as).length ∧
      (∀ i name, (streamNames as)[i]? = some name → ∃ r, fork U (.ntfs v f : Entry D) i = .ok ⟨name, r⟩ ∧
        (∀ s, r = .ok s ↔ streamByName U (.ntfs v f : Entry D) name = .ok (some s)) ∧
        (name = none → ∀ s, r = .ok s ↔ stream U (.ntfs v f : Entry D) = .ok (some s))) ∧
      ∀ i, (streamNames as).length ≤ i → fork U (.ntfs v f : Entry D) i = .err := by
  obtain ⟨v, f, h1, h2, -, -, -, -, h3, h4, h5⟩ := C62_forks_partial U V hV hU n as h
  refine ⟨v, f, h1, h2, h3, ?_, ?_⟩
  · intro i name hi
    obtain ⟨g1, g2⟩ := h4 i name hi
    have key : ∀ s : Source D, (f.forkStream v i >>= fun o => (.ok (.ntfs o) : R (Source D))) = .ok s ↔
        streamByName U (.ntfs v f : Entry D) name = .ok (some s) := by
      intro s
      rw [g2]
      unfold streamByName
      simp only
      cases hc : f.stream v name with
      | ok o =>
        cases o with
        | none => simp [R.ok_bind, R.err_bind, R.pure_eq]
        | some o => simp [R.ok_bind, R.pure_eq]
      | err => simp [R.err_bind]
      | panic => exact ⟨fun hx => (by cases hx), fun hx => (by cases hx)⟩
    refine ⟨_, ?_, key, ?_⟩
    · unfold fork
      simp only
      rw [g1, R.ok_bind]
      rfl
    · rintro rfl s
      exact key s
  · intro i hi
    unfold fork
    simp only
    rw [(h5 i hi).1, R.err_bind]

/-- The hypotheses are met: a file with its attributes in two records. -/
example : IsVolume NtfsSample.U NtfsSample.V ∧ NtfsSample.U.length < 2 ^ 63 ∧ IsFile NtfsSample.U NtfsSample.V.mft 8 (NtfsSample.attrs8 ++ NtfsSample.attrs9) ∧
    streamNames (NtfsSample.attrs8 ++ NtfsSample.attrs9) = [none] :=
  ⟨NtfsSample.volume_U, by rw [NtfsSample.length_U]; decide, NtfsSample.file8, by decide +kernel⟩

end Ntfs

/-- C87, named data streams: only files on NTFS have them; without a name the stream is the default one. -/
theorem C87_named {D : Type} (U : List Byte) (entry : Entry D) :
    streamByName U entry none = stream U entry ∧
    ∀ name, (∀ v f, entry ≠ .ntfs v f) → streamByName U entry (some name) = .ok none := by
  refine ⟨?_, ?_⟩
  · cases entry <;> rfl
  · intro name h
    cases entry with
    | ntfs v f => exact absurd rfl (h v f)
    | _ => rfl

/-- C87 does not hold of partitions and layers: they have one data fork and a data stream, and the data fork ends the program. -/
theorem C87_violated_member {D : Type} (U : List Byte) (i : Nat) (d : D) :
    forkCount (.member (.part i d) : Entry D) = 1 ∧ stream U (.member (.part i d)) = .ok (some (.other d)) ∧
    fork U (.member (.part i d)) 0 = .panic := ⟨rfl, rfl, rfl⟩

/-- C87 does not hold of files of the operating system. -/
theorem C87_violated_os {D : Type} (U : List Byte) (d : D) :
    forkCount (.other .file (.ok (some d)) : Entry D) = 1 ∧ stream U (.other .file (.ok (some d))) = .ok (some (.other d)) ∧
    fork U (.other .file (.ok (some d))) 0 = .panic := ⟨rfl, rfl, rfl⟩

end Keramics.Props
