import Verif.Model.FatHierarchy
import Verif.Spec.FatHierarchy
import Verif.Props.FatListing
import Verif.Props.InfoHierarchy

/-!
# C81: the hierarchy of a FAT file system
-/

namespace Keramics.Props
open Keramics.InfoTool HashTool Keramics.FatFs Spec.FatFs
open Spec (codePoints doubled rootedText)
open Spec.FatDir (Stored fileName folded)
open Keramics.FatDir (State Entry)
open FatFsLemmas

theorem listing_unique {fold : Nat → Option Nat} {stored : List Stored} {l m : List File} (hl : Listing fold stored l) (hm : Listing fold stored m) : l = m := by
  have nd : ∀ {l : List File}, Listing fold stored l → l.Nodup := fun hl =>
    hl.1.imp fun {a b} hab e => by rw [e] at hab; exact List.lt_irrefl _ hab
  have hp : l.Perm m := (List.perm_ext_iff_of_nodup (nd hl) (nd hm)).2 fun f => (hl.2 f).trans (hm.2 f).symm
  exact List.Perm.eq_of_pairwise (fun a b _ _ h1 h2 => absurd (List.lt_trans h1 h2) (List.lt_irrefl _)) hl.1 hm.1 hp

private theorem fat_text {f : File} {e : Entry} (his : Is f e) : fatText ⟨some e, none⟩ = Path.ucs2Text (fileName f) := by
  unfold fatText
  rw [is_name his none]
  obtain ⟨long, short⟩ := f
  cases long <;> rfl

private theorem fatEntry {fold : Nat → Option Nat} (hfold : ∀ u, u < 128 → (fold u).getD u = if 97 ≤ u ∧ u ≤ 122 then u - 32 else u) {U : List Byte} {v : FatFs.Volume}
    (hft : Fits U v.table) (hU : U.length < 2 ^ 63) :
    ∀ d fuel, d + 1 ≤ fuel → ∀ stored paths, BelowFiles fold U (params U).layout (reach (params U)) d stored paths → (∀ s ∈ stored, s.Ok) →
      ∀ above above' e st, subEntries fold U v e = .ok st → DirOk fold stored st → entryPath (fatWalk fold U v) above e = .ok (rootedText above', above') →
        hierarchyEntry (fatWalk fold U v) fuel above e = (([] :: paths).map (fun names => rootedText (above' ++ names.map Path.ucs2Text)), .ok ()) := by
  intro d
  induction d with
  | zero => intro _ _ _ _ hb; exact absurd hb (by simp [BelowFiles])
  | succ d ih =>
    intro fuel hf stored paths hb hok above above' e st hs hd hp
    obtain ⟨fuel, rfl⟩ : ∃ g, fuel = g + 1 := ⟨fuel - 1, by omega⟩
    obtain ⟨files, hlist, hsub, rfl⟩ := hb
    obtain ⟨l, l1, l2, l3, l4⟩ := dirOk_listing hd
    have hl : l = files.map Prod.fst := listing_unique l1 hlist
    subst hl
    have hlines : (fatWalk fold U v).lines e (rootedText above') = ([rootedText above'], .ok ()) := rfl
    have := hierarchy_step (fuel := fuel)
      (fun x : File × List (List (List Nat)) =>
        ([] :: x.2).map fun names => rootedText ((above' ++ [Path.ucs2Text (fileName x.1)]) ++ names.map Path.ucs2Text)) files hp hlines
      (by
        show FatFs.subCount fold U v e = _
        unfold FatFs.subCount
        rw [hs, R.ok_bind, ← l2, List.length_map]; rfl)
      (fun k hk => by
        obtain ⟨p, p1, p2⟩ := l4 k (by simpa using hk)
        rw [List.getElem_map] at p2
        have hfok : files[k].1.2.Ok := files_ok hok hlist _ (List.mem_map.2 ⟨files[k], List.getElem_mem hk, rfl⟩)
        have hpath : entryPath (fatWalk fold U v) above' ⟨some p.2, none⟩ =
            .ok (rootedText (above' ++ [Path.ucs2Text (fileName files[k].1)]), above' ++ [Path.ucs2Text (fileName files[k].1)]) :=
          path_pushed above' rfl (by show R.ok (fatText ⟨some p.2, none⟩) = _; rw [fat_text p2])
        refine ⟨⟨some p.2, none⟩, ?_, ?_⟩
        · show FatFs.subByIndex fold U v e k = _
          unfold FatFs.subByIndex
          rw [hs, R.ok_bind, p1]; rfl
        · rcases hsub files[k] (List.getElem_mem hk) with ⟨hnd, hx⟩ | ⟨hdir, hst, stored', hsd, hb'⟩
          · obtain ⟨fuel, rfl⟩ : ∃ g, fuel = g + 1 := ⟨fuel - 1, by omega⟩
            have hno : subEntries fold U v ⟨some p.2, none⟩ = .ok FatDir.init := by
              unfold subEntries
              simp only
              rw [if_neg fun h => hnd ((isDirectory_eq hfok p2 none).1 h)]
            have := hierarchy_step (fuel := fuel) (X := Unit) (fun _ => []) [] hpath (w := fatWalk fold U v) (own := [_]) rfl
              (by show FatFs.subCount fold U v _ = _; unfold FatFs.subCount; rw [hno]; rfl) (by simp)
            rw [this, hx]
            simp
          · obtain ⟨s, s1, s2, s3⟩ := sub_entries hfold hft hU hfok p2 hdir hst hsd
            exact ih fuel (by omega) _ _ hb' s3 _ _ _ s s1 s2 hpath)
    rw [this]
    simp [List.map_flatMap, Function.comp_def]

/-- C81, what holds of FAT: "/" and then a line for every path, each directory before what is in it, and the names in order. Backslashes are
twice. Missing: names with surrogates or a line feed, files with the same name but for case, and entries that lead back to a directory above them. -/
theorem C81_fat_partial (fold : Nat → Option Nat) (hfold : ∀ u, u < 128 → (fold u).getD u = if 97 ≤ u ∧ u ≤ 122 then u - 32 else u)
    (U : List Byte) (hU : U.length < 2 ^ 63) (hv : Valid U) (h1 : (params U).clusters < 4085 → (params U).area < 4085)
    (h2 : (params U).clusters < 65525 → (params U).area < 65525) (root : List Stored) (hroot : Root U (reach (params U)) root) (depth : Nat)
    (paths : List (List (List Nat))) (hb : BelowFiles fold U (params U).layout (reach (params U)) depth root paths)
    (hn : ∀ names ∈ paths, ∀ name ∈ names, ∀ c ∈ name, Spec.Utf8.isScalar c) (fuel : Nat) (hf : depth < fuel) :
    fatHierarchy fold U fuel = (codePoints "File Allocation Table (FAT) hierarchy:" :: codePoints "/" ::
      paths.map (fun names => rootedText (names.map doubled)), .ok ()) := by
  obtain ⟨v, st, hopen, hft, hst, hd, hok⟩ := fat_open fold hfold U hU hv h1 h2 root hroot
  have hre : rootEntry fold U v = .ok ⟨none, some st⟩ := by unfold rootEntry; rw [hst]; rfl
  have h := fatEntry (v := v) hfold hft hU depth fuel hf root paths hb hok [] [] ⟨none, some st⟩ st rfl hd (path_root rfl)
  unfold fatHierarchy
  rw [hopen]
  simp only [HashTool.after]
  rw [hre]
  simp only [HashTool.after]
  rw [h]
  simp only [Out.andThen, say, List.map_cons, List.map_nil, List.append_nil, List.nil_append, List.singleton_append]
  refine Prod.ext ?_ rfl
  refine congrArg (List.cons _) (congrArg₂ List.cons rfl (List.map_congr_left fun names hm => congrArg rootedText (List.map_congr_left fun name hm' => ?_)))
  exact units_text (hn names hm name hm')

theorem sample_listing : Listing sampleFold sampleRoot [(none, sampleFile), (some [0x64, 0xe9], sampleDirectory)] := by
  refine ⟨by decide +kernel, fun f => ⟨fun hf => ?_, fun hf => ?_⟩⟩
  · simp only [List.mem_cons, List.not_mem_nil, or_false] at hf
    rcases hf with rfl | rfl
    · rfl
    · rfl
  · have := List.mem_of_find?_eq_some hf
    rw [List.mem_reverse] at this
    exact this

theorem sample_files : BelowFiles sampleFold sampleVolume (params sampleVolume).layout (reach (params sampleVolume)) 2 sampleRoot
    [[[0x41, 0x2e, 0x54, 0x58, 0x54]], [[0x64, 0xe9]], [[0x64, 0xe9], [0x62]]] := by
  refine ⟨[((none, sampleFile), []), ((some [0x64, 0xe9], sampleDirectory), [[[0x62]]])], sample_listing, fun x hx => ?_, by decide +kernel⟩
  simp only [List.mem_cons, List.not_mem_nil, or_false] at hx
  rcases hx with rfl | rfl
  · exact .inl ⟨by unfold IsDirectory; decide +kernel, rfl⟩
  · refine .inr ⟨by unfold IsDirectory; decide +kernel, by decide +kernel, sampleSub, ?_, [((some [0x62], sampleInner), [])], ?_, ?_, rfl⟩
    · refine ⟨[4], .next (by decide +kernel) (by decide +kernel) (.last (by decide +kernel)), sample_in (by decide), ?_, 448, by decide +kernel⟩
      intro s hs
      simp only [sampleSub, List.mem_cons, List.not_mem_nil, or_false] at hs
      subst hs
      exact ⟨by decide, by decide, by decide, sample_short.2.2⟩
    · refine ⟨by simp, fun f => ⟨fun hf => ?_, fun hf => ?_⟩⟩
      · simp only [List.map_cons, List.map_nil, List.mem_cons, List.not_mem_nil, or_false] at hf
        subst hf
        rfl
      · have := List.mem_of_find?_eq_some hf
        rw [List.mem_reverse] at this
        exact this
    · intro x hx
      simp only [List.mem_cons, List.not_mem_nil, or_false] at hx
      subst hx
      exact .inl ⟨by unfold IsDirectory; decide +kernel, rfl⟩

/-- "A.TXT", the directory "dé" and "b" in it. -/
example : (fatHierarchy sampleFold sampleVolume 3).1 = ["File Allocation Table (FAT) hierarchy:", "/", "/A.TXT", "/dé", "/dé/b"].map codePoints := by
  rw [C81_fat_partial sampleFold sample_fold sampleVolume (by decide +kernel) sample_valid (fun _ => by decide +kernel) (fun _ => by decide +kernel) sampleRoot sample_root 2 _ sample_files
    (by simp [Spec.Utf8.isScalar]) 3 (by omega)]
  decide +kernel

end Keramics.Props
