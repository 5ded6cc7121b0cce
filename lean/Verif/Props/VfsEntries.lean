import Verif.Spec.VfsEntries
import Verif.Props.ExtFileSystem

/-!
# C85, C86: file entries of the operating system and targets of symbolic links
-/

namespace Keramics.VfsEntries
open Keramics.Spec.VfsEntries
open ImageTool (Time FileType)

theorem bmod_small {t : Int} (h1 : -2 ^ 31 ≤ t) (h2 : t < 2 ^ 31) : asI32 t = t := by
  rw [asI32, Int.bmod_def]
  split <;> omega

theorem bmod_range (t : Int) : -2 ^ 31 ≤ asI32 t ∧ asI32 t < 2 ^ 31 := by
  rw [asI32, Int.bmod_def]
  split <;> omega

theorem posixTime_value {t : Int × Int} (h : Shown t) : value (posixTime t) = some (t.1, t.2.toNat) := by
  obtain ⟨h1, h2, h3⟩ := h
  rw [posixTime]
  split
  · simp only [value, asU32]
    congr 2
    omega
  · rename_i hz
    have hz : t.2 = 0 := by omega
    obtain ⟨h4, h5, h6⟩ := h3 hz
    rw [if_pos h6, value, bmod_small h4 h5, hz]
    rfl

theorem osType_eq {mode : Nat} (h : mode < 2 ^ 16) {type : FileType} (ht : posixType mode = some type) (hs : type ≠ .socket) :
    osType mode = .ok type := by
  have e := ExtFs.and_mode h
  simp only [osType, e]
  have hlt : mode / 4096 < 16 := by omega
  unfold posixType at ht
  simp only [show (2 : Nat) ^ 12 = 4096 by rfl]
  generalize mode / 4096 = k at ht hlt ⊢
  match k, ht with
  | 1, ht | 2, ht | 4, ht | 6, ht | 8, ht | 10, ht => cases ht; rfl
  | 12, ht => cases ht; exact absurd rfl hs

theorem osType_socket {mode : Nat} (h : mode < 2 ^ 16) (ht : posixType mode = some .socket ∨ posixType mode = none) : osType mode = .err := by
  have e := ExtFs.and_mode h
  simp only [osType, e]
  have hlt : mode / 4096 < 16 := by omega
  unfold posixType at ht
  simp only [show (2 : Nat) ^ 12 = 4096 by rfl]
  generalize mode / 4096 = k at ht hlt ⊢
  match k, ht, hlt with
  | 0, _, _ | 3, _, _ | 5, _, _ | 7, _, _ | 9, _, _ | 11, _, _ | 12, _, _ | 13, _, _ | 14, _, _ | 15, _, _ => rfl
  | 1, ht, _ | 2, ht, _ | 4, ht, _ | 6, ht, _ | 8, ht, _ | 10, ht, _ => simp at ht
  | n + 16, _, hlt => omega

section split
variable {α : Type} [DecidableEq α]

theorem split_components (sep : α) (s : List α) : Components sep s (split sep s) := by
  induction s with
  | nil => exact ⟨rfl, by simp [split], by simp [split]⟩
  | cons c cs ih =>
    obtain ⟨h1, h2, h3⟩ := ih
    rw [split]
    split
    · rename_i hc
      subst hc
      refine ⟨?_, ?_, by simp⟩
      · cases hs : split c cs with
        | nil => exact absurd hs h3
        | cons x xs => rw [hs] at h1; simp [List.intercalate, List.intersperse] at h1 ⊢; exact h1
      · intro x hx
        rcases List.mem_cons.1 hx with rfl | hx
        · simp
        · exact h2 x hx
    · rename_i hc
      cases hs : split sep cs with
      | nil => exact absurd hs h3
      | cons x xs =>
        rw [hs] at h1 h2
        refine ⟨?_, ?_, by simp⟩
        · cases xs with
          | nil => simpa [List.intercalate] using h1
          | cons y ys => simpa [List.intercalate, List.intersperse] using h1
        · intro y hy
          rcases List.mem_cons.1 hy with rfl | hy
          · simp only [List.mem_cons, not_or]
            exact ⟨fun h => hc h.symm, h2 x (by simp)⟩
          · exact h2 y (by simp [hy])

theorem split_whole (sep : α) (a : List α) (h : sep ∉ a) : split sep a = [a] := by
  induction a with
  | nil => rfl
  | cons c cs ih =>
    simp only [List.mem_cons, not_or] at h
    rw [split, if_neg (fun e => h.1 e.symm), ih h.2]

theorem split_sep (sep : α) (a s : List α) (h : sep ∉ a) : split sep (a ++ sep :: s) = a :: split sep s := by
  induction a with
  | nil => simp [split]
  | cons c cs ih =>
    simp only [List.mem_cons, not_or] at h
    rw [List.cons_append, split, if_neg (fun e => h.1 e.symm), ih h.2]

theorem split_mem {sep : α} {s c : List α} (h : c ∈ split sep s) {x : α} (hx : x ∈ c) : x ∈ s := by
  induction s generalizing c with
  | nil => simp only [split, List.mem_singleton] at h; subst h; simp at hx
  | cons a s ih =>
    rw [split] at h
    split at h
    · rcases List.mem_cons.1 h with rfl | h
      · simp at hx
      · exact List.mem_cons_of_mem _ (ih h hx)
    · split at h
      · simp only [List.mem_singleton] at h
        subst h
        simp only [List.mem_singleton] at hx
        simp [hx]
      · rename_i x0 xs hs
        rcases List.mem_cons.1 h with rfl | h
        · rcases List.mem_cons.1 hx with rfl | hx
          · simp
          · exact List.mem_cons_of_mem _ (ih (by rw [hs]; simp) hx)
        · exact List.mem_cons_of_mem _ (ih (by rw [hs]; simp [h]) hx)

end split

theorem elements_id {s : List Byte} (h : 0 ∉ s) : ByteString.elements s = s := by
  rw [ByteString.elements]
  split
  · rename_i i hi
    rw [List.findIdx?_eq_some_iff_getElem] at hi
    obtain ⟨hlt, hz, -⟩ := hi
    exact absurd (by simp only [beq_iff_eq] at hz; rw [← hz]; exact List.getElem_mem hlt) h
  · rfl

theorem elements_zero (s : List Byte) : 0 ∉ ByteString.elements s := by
  rw [ByteString.elements]
  split
  · rename_i i hi
    rw [List.findIdx?_eq_some_iff_getElem] at hi
    obtain ⟨hlt, -, hz⟩ := hi
    intro hm
    obtain ⟨j, hj, e⟩ := List.getElem_of_mem hm
    rw [List.length_take] at hj
    rw [List.getElem_take] at e
    exact hz j (by omega) (by simp [e])
  · rename_i hn
    rw [List.findIdx?_eq_none_iff] at hn
    intro hm
    simpa using hn 0 hm

theorem ucs2Slice_id {s : List Nat} (h : 0 ∉ s) : ucs2Slice s = s := by
  induction s with
  | nil => rfl
  | cons c cs ih =>
    simp only [List.mem_cons, not_or] at h
    rw [ucs2Slice, List.takeWhile_cons, if_pos (by simpa using fun e : c = 0 => h.1 e.symm)]
    exact congrArg _ (ih h.2)

theorem map_id' {α : Type} (f : α → α) (l : List α) (h : ∀ x ∈ l, f x = x) : l.map f = l := by
  rw [List.map_congr_left (g := id) (by simpa using h), List.map_id]

end Keramics.VfsEntries

namespace Keramics.Props
open Keramics.Spec.VfsEntries VfsEntries
open ImageTool (Time FileType)

/-- C85, but for sockets, creation times before 1970, and times in whole seconds that are zero or beyond 32 bits: the file entry of a file of the
operating system has its type and times. Missing: what is left out (all violated). -/
theorem C85_entry_partial (m : Metadata) (type : FileType) (hm : m.mode < 2 ^ 16) (ht : posixType m.mode = some type) (hs : type ≠ .socket)
    (h1 : Shown m.modified) (h2 : Shown m.accessed) (h3 : Shown m.changed) (h4 : ∀ t, m.created = some t → 0 ≤ t.1) :
    ∃ e, openOs m = .ok e ∧ e.type = type ∧
      e.modification.bind value = some (m.modified.1, m.modified.2.toNat) ∧ e.access.bind value = some (m.accessed.1, m.accessed.2.toNat) ∧
      e.change.bind value = some (m.changed.1, m.changed.2.toNat) ∧ e.creation.bind value = m.created := by
  have hc : ∃ c, creationTime m.created = .ok c ∧ c.bind value = m.created := by
    cases h : m.created with
    | none => exact ⟨none, rfl, rfl⟩
    | some t =>
      have := h4 t h
      exact ⟨_, by rw [creationTime, if_neg (by omega)], rfl⟩
  obtain ⟨c, hc1, hc2⟩ := hc
  refine ⟨⟨type, some (posixTime m.accessed), some (posixTime m.changed), c, some (posixTime m.modified)⟩, ?_, rfl, ?_, ?_, ?_, hc2⟩
  · simp only [openOs, osType_eq hm ht hs, hc1, R.ok_bind, R.pure_eq]
  · exact posixTime_value h1
  · exact posixTime_value h2
  · exact posixTime_value h3

/-- C85 does not hold in full: a time in whole seconds that does not fit in 32 bits is shown as another time. -/
theorem C85_violated_seconds (t : Int) (h : t < -2 ^ 31 ∨ 2 ^ 31 ≤ t) :
    ∃ t', value (posixTime (t, 0)) = some (t', 0) ∧ t' ≠ t := by
  have hr := bmod_range t
  refine ⟨asI32 t, ?_, by omega⟩
  rw [posixTime, if_neg (by simp), if_pos (by simp only; omega)]
  rfl

/-- C85 does not hold in full: the first second of 1970 is shown as a time that is not set. -/
theorem C85_violated_zero : posixTime (0, 0) = .notSet := rfl

/-- C85 does not hold in full: a socket cannot be opened. -/
theorem C85_violated_socket (m : Metadata) (hm : m.mode < 2 ^ 16) (ht : posixType m.mode = some .socket) : openOs m = .err := by
  simp only [openOs, osType_socket hm (.inl ht), R.err_bind]

/-- C85 does not hold in full: a file whose creation time is before 1970 cannot be opened. -/
theorem C85_violated_creation (m : Metadata) (type : FileType) (hm : m.mode < 2 ^ 16) (ht : posixType m.mode = some type) (hs : type ≠ .socket)
    (t : Int × Nat) (hc : m.created = some t) (h : t.1 < 0) : openOs m = .err := by
  simp only [openOs, osType_eq hm ht hs, hc, creationTime, if_pos h, R.ok_bind, R.err_bind]

/-- A regular file, last changed in 2025. -/
def sampleMetadata : Metadata := ⟨0o100644, (1750000000, 5), (1750000001, 0), (1750000002, 0), some (1700000000, 7)⟩

example : sampleMetadata.mode < 2 ^ 16 ∧ posixType sampleMetadata.mode = some .file ∧ Shown sampleMetadata.modified ∧ Shown sampleMetadata.accessed ∧
    Shown sampleMetadata.changed ∧ ∀ t, sampleMetadata.created = some t → 0 ≤ t.1 := by
  refine ⟨by decide, rfl, by simp [Shown, sampleMetadata], by simp [Shown, sampleMetadata], by simp [Shown, sampleMetadata], ?_⟩
  intro t h
  cases h
  decide

/-- The first second that does not fit, in 2038, is shown as a time in 1901. -/
example : value (posixTime (2 ^ 31, 0)) = some (-2 ^ 31, 0) := by decide

example : posixType 0o140777 = some .socket := rfl

/-- C86: the target of a symbolic link of ext is the path of its components between slashes. -/
theorem C86_ext (U : List Byte) (fs : ExtFs.Fs) (e : ExtFs.Entry) (target : List Byte) (h : ExtFs.linkTarget U fs e = .ok (some target)) :
    ∃ components, extTarget U fs e = .ok (some (.ext components)) ∧ Components 0x2f target components := by
  have h0 : 0 ∉ target := by
    rw [ExtFs.linkTarget] at h
    split at h
    · obtain ⟨_, -, h⟩ := R.bind_eq_ok.1 h
      obtain ⟨data, -, h⟩ := R.bind_eq_ok.1 h
      cases h
      exact elements_zero data
    · cases h
  refine ⟨split 0x2f target, ?_, split_components _ _⟩
  simp only [extTarget, h, R.ok_bind, R.pure_eq, Option.map_some, extPath]
  rw [map_id' _ _ fun c hc => elements_id fun hz => h0 (split_mem hc hz)]

/-- C86: what is no symbolic link has no target. -/
theorem C86_none (U : List Byte) (fs : ExtFs.Fs) (e : ExtFs.Entry) (f : NtfsFs.File) :
    (e.inode.mode &&& 0xf000 ≠ 0xa000 → extTarget U fs e = .ok none) ∧ (f.isLink = false → ntfsTarget f = none) := by
  constructor
  · intro h
    simp [extTarget, ExtFs.linkTarget, h]
  · intro h
    rw [NtfsFs.File.isLink] at h
    rw [ntfsTarget, NtfsFs.File.target]
    split at h
    · cases h
    · rfl

/-- C86, for NTFS targets that begin with `\??\`: the target is the path of the components behind that. Missing: other targets, which relative
symbolic links have (`C86_violated_relative`). -/
theorem C86_ntfs_partial (f : NtfsFs.File) (rest : List Nat) (h : f.target = some ([0x5c, 0x3f, 0x3f, 0x5c] ++ rest)) (h0 : 0 ∉ rest) :
    ∃ components, ntfsTarget f = some (.ntfs components) ∧ Components 0x5c rest components := by
  refine ⟨split 0x5c rest, ?_, split_components _ _⟩
  have e1 : split 0x5c ([0x5c, 0x3f, 0x3f, 0x5c] ++ rest) = [] :: [0x3f, 0x3f] :: split 0x5c rest := by
    rw [show [0x5c, 0x3f, 0x3f, 0x5c] ++ rest = [] ++ 0x5c :: ([0x3f, 0x3f] ++ 0x5c :: rest) from rfl, split_sep _ _ _ (by simp),
      split_sep _ _ _ (by decide)]
  simp only [ntfsTarget, h, Option.map_some, ntfsPath, e1, List.drop_succ_cons, List.drop_zero]
  rw [map_id' _ _ fun c hc => ucs2Slice_id fun hz => h0 (split_mem hc hz)]

/-- C86 does not hold in full: a relative target of NTFS loses its first two components: that of one component is the empty path, and so is that of
two, and others give the same path as if the first two had not been there. -/
theorem C86_violated_relative (f : NtfsFs.File) (a b rest : List Nat) (ha : 0x5c ∉ a) (hb : 0x5c ∉ b) :
    (f.target = some a → ntfsTarget f = some (.ntfs [])) ∧
    (f.target = some (a ++ 0x5c :: b) → ntfsTarget f = some (.ntfs [])) ∧
    (f.target = some (a ++ 0x5c :: (b ++ 0x5c :: rest)) → ntfsTarget f = some (ntfsPath ([0x5c, 0x3f, 0x3f, 0x5c] ++ rest))) := by
  refine ⟨fun h => ?_, fun h => ?_, fun h => ?_⟩
  · simp only [ntfsTarget, h, Option.map_some, ntfsPath, split_whole _ _ ha]
    rfl
  · simp only [ntfsTarget, h, Option.map_some, ntfsPath, split_sep _ _ _ ha, split_whole _ _ hb]
    rfl
  · have e1 : split 0x5c ([0x5c, 0x3f, 0x3f, 0x5c] ++ rest) = [] :: [0x3f, 0x3f] :: split 0x5c rest := by
      rw [show [0x5c, 0x3f, 0x3f, 0x5c] ++ rest = [] ++ 0x5c :: ([0x3f, 0x3f] ++ 0x5c :: rest) from rfl, split_sep _ _ _ (by simp),
        split_sep _ _ _ (by decide)]
    simp only [ntfsTarget, h, Option.map_some, ntfsPath, split_sep _ _ _ ha, split_sep _ _ _ hb, e1]
    rfl

/-- A symbolic link of an ext volume. -/
example : ∃ fs e, ExtFs.linkTarget ExtSample.volume fs e = .ok (some [0x66, 0x69, 0x6c, 0x65]) := by
  have h : (do
      let fs ← ExtFs.openFs ExtSample.volume
      let e ← ExtFs.byIdentifier ExtSample.volume fs 4
      ExtFs.linkTarget ExtSample.volume fs e : R (Option (List Byte))) = .ok (some [0x66, 0x69, 0x6c, 0x65]) := by decide +kernel
  obtain ⟨fs, -, h⟩ := R.bind_eq_ok.1 h
  obtain ⟨e, -, h⟩ := R.bind_eq_ok.1 h
  exact ⟨fs, e, h⟩

/-- An NTFS file that is a symbolic link to a target. -/
def sampleLink (target : List Nat) : NtfsFs.File :=
  ⟨30, ⟨[], 1, 0, 0, 0, false, false, true⟩, { NtfsFs.Attrs.empty with reparse := some (.link target []) }, false⟩

/-- The target `\??\C:\a` gives `C:\a`, and the relative target `a\b\c` gives `c`. -/
example : (sampleLink [0x5c, 0x3f, 0x3f, 0x5c, 0x43, 0x3a, 0x5c, 0x61]).target = some ([0x5c, 0x3f, 0x3f, 0x5c] ++ [0x43, 0x3a, 0x5c, 0x61]) ∧
    ntfsTarget (sampleLink [0x5c, 0x3f, 0x3f, 0x5c, 0x43, 0x3a, 0x5c, 0x61]) = some (.ntfs [[0x43, 0x3a], [0x61]]) ∧
    (sampleLink [0x61, 0x5c, 0x62, 0x5c, 0x63]).target = some ([0x61] ++ 0x5c :: ([0x62] ++ 0x5c :: [0x63])) ∧
    ntfsTarget (sampleLink [0x61, 0x5c, 0x62, 0x5c, 0x63]) = some (.ntfs [[0x63]]) := by
  refine ⟨rfl, by decide, rfl, by decide⟩

end Keramics.Props
