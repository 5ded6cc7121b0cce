import Verif.Model.FatListing
import Verif.Spec.FatListing
import Verif.Props.FatFileSystem

/-!
# C82: the files of FAT directories by index
-/

namespace Keramics.Props
open Keramics.FatFs Spec.FatFs Spec
open Spec.FatDir (Stored fileName folded)
open Keramics.FatDir (State Entry)
open FatFsLemmas

theorem place_mem (p x : List Nat × Entry) (l : List (List Nat × Entry)) : x ∈ place p l ↔ x = p ∨ x ∈ l := by
  induction l with
  | nil => simp [place]
  | cons q l ih =>
    unfold place
    split
    · simp
    · simp only [List.mem_cons, ih]
      constructor
      · rintro (h | h | h)
        · exact Or.inr (Or.inl h)
        · exact Or.inl h
        · exact Or.inr (Or.inr h)
      · rintro (h | h | h)
        · exact Or.inr (Or.inl h)
        · exact Or.inl h
        · exact Or.inr (Or.inr h)

theorem place_sorted (p : List Nat × Entry) (l : List (List Nat × Entry)) (h : l.Pairwise fun a b => a.1 < b.1) (hp : p.1 ∉ l.map Prod.fst) :
    (place p l).Pairwise fun a b => a.1 < b.1 := by
  induction l with
  | nil => simp [place]
  | cons q l ih =>
    rw [List.pairwise_cons] at h
    rw [List.map_cons, List.mem_cons, not_or] at hp
    unfold place
    split
    case isTrue hlt =>
      refine List.pairwise_cons.2 ⟨fun x hx => ?_, List.pairwise_cons.2 h⟩
      rcases List.mem_cons.1 hx with rfl | hx
      · exact hlt
      · exact List.lt_trans hlt (h.1 x hx)
    case isFalse hlt =>
      refine List.pairwise_cons.2 ⟨fun x hx => ?_, ih h.2 hp.2⟩
      rcases (place_mem p x l).1 hx with rfl | hx
      · rcases Std.lt_trichotomy q.1 x.1 with h' | h' | h'
        · exact h'
        · exact absurd h'.symm hp.1
        · exact absurd h' hlt
      · exact h.1 x hx

theorem inOrder_ok (l : List (List Nat × Entry)) (h : (l.map Prod.fst).Nodup) :
    (inOrder l).Pairwise (fun a b => a.1 < b.1) ∧ (∀ x, x ∈ inOrder l ↔ x ∈ l) ∧ (inOrder l).length = l.length := by
  have hlen : ∀ (p : List Nat × Entry) l, (place p l).length = l.length + 1 := by
    intro p l
    induction l with
    | nil => rfl
    | cons q l ih =>
      unfold place
      split
      · rfl
      · simp [ih]
  induction l with
  | nil => exact ⟨List.Pairwise.nil, fun _ => Iff.rfl, rfl⟩
  | cons p l ih =>
    rw [List.map_cons, List.nodup_cons] at h
    obtain ⟨h1, h2, h3⟩ := ih h.2
    have hp : p.1 ∉ (inOrder l).map Prod.fst := fun hm => by
      obtain ⟨x, hx, he⟩ := List.mem_map.1 hm
      exact h.1 (List.mem_map.2 ⟨x, (h2 x).1 hx, he⟩)
    refine ⟨place_sorted p _ h1 hp, fun x => ?_, ?_⟩
    · show x ∈ place p (inOrder l) ↔ _
      rw [place_mem, h2, List.mem_cons]
    · show (place p (inOrder l)).length = _
      rw [hlen, h3]; rfl

theorem choose_list {α β : Type} {P : α → β → Prop} (L : List α) (h : ∀ a ∈ L, ∃ b, P a b) :
    ∃ l : List β, l.length = L.length ∧ ∀ k (hk : k < L.length) (hl : k < l.length), P L[k] l[k] := by
  induction L with
  | nil => exact ⟨[], rfl, fun k hk => absurd hk (by simp)⟩
  | cons a L ih =>
    obtain ⟨b, hb⟩ := h a List.mem_cons_self
    obtain ⟨l, h1, h2⟩ := ih fun a ha => h a (List.mem_cons_of_mem _ ha)
    refine ⟨b :: l, by simp [h1], fun k hk hl => ?_⟩
    cases k with
    | zero => exact hb
    | succ k => exact h2 k (by simpa using hk) (by simpa using hl)

theorem find_mem {st : State} (h : (st.entries.map Prod.fst).Nodup) {k : List Nat} {e : Entry} : (k, e) ∈ st.entries ↔ FatDir.find st k = some e := by
  unfold FatDir.find
  constructor
  · intro hm
    generalize st.entries = l at h hm
    induction l with
    | nil => cases hm
    | cons q l ih =>
      rw [List.map_cons, List.nodup_cons] at h
      rcases List.mem_cons.1 hm with rfl | hm
      · simp
      · have : q.1 ≠ k := fun he => h.1 (List.mem_map.2 ⟨(k, e), hm, he.symm⟩)
        rw [List.find?_cons_of_neg (by simpa using this)]
        exact ih h.2 hm
  · intro hf
    obtain ⟨p, hp, he⟩ := Option.map_eq_some_iff.1 hf
    have h1 := List.find?_some hp
    have h2 := List.mem_of_find?_eq_some hp
    simp only [decide_eq_true_eq] at h1
    rw [← h1, ← he]
    exact h2

theorem lookup_folded {fold : Nat → Option Nat} {stored : List Stored} {name name' : List Nat} (h : folded fold name = folded fold name') :
    lookup fold stored name = lookup fold stored name' := by
  unfold lookup
  rw [h]

theorem lookup_name {fold : Nat → Option Nat} {stored : List Stored} {name : List Nat} {f : File} (h : lookup fold stored name = some f) :
    folded fold (fileName f) = folded fold name := by
  have := List.find?_some h
  simpa using this

/-- The entries of a directory in order. -/
theorem dirOk_listing {fold : Nat → Option Nat} {stored : List Stored} {st : State} (h : DirOk fold stored st) :
    ∃ l, Listing fold stored l ∧ l.length = st.entries.length ∧ (inOrder st.entries).length = l.length ∧
      ∀ k (hk : k < l.length), ∃ p, (inOrder st.entries)[k]? = some p ∧ Is l[k] p.2 := by
  obtain ⟨h1, h2, h3⟩ := inOrder_ok st.entries h.nodup
  have key : ∀ p ∈ inOrder st.entries, ∃ f, Is f p.2 ∧ folded fold (fileName f) = p.1 ∧ lookup fold stored (fileName f) = some f := by
    intro p hp
    have hm := (h2 p).1 hp
    obtain ⟨name, hn⟩ := h.keys p.1 (List.mem_map.2 ⟨p, hm, rfl⟩)
    have hf := (find_mem h.nodup (k := p.1) (e := p.2)).1 hm
    have hd := h.finds name
    rw [hn] at hf
    rw [hf] at hd
    cases hl : lookup fold stored name with
    | none => rw [hl] at hd; cases hd
    | some f =>
      rw [hl] at hd
      obtain ⟨e, he, h4⟩ := hd
      injection he with he
      subst he
      have h5 := lookup_name hl
      refine ⟨f, h4, ?_, by rw [lookup_folded h5]; exact hl⟩
      rw [hn, h5]
      rfl
  obtain ⟨l, hl1, hl2⟩ := choose_list _ key
  refine ⟨l, ⟨?_, fun f => ⟨fun hf => ?_, fun hf => ?_⟩⟩, by rw [hl1, h3], hl1.symm, fun k hk => ?_⟩
  · refine List.pairwise_iff_getElem.2 fun i j hi hj hij => ?_
    rw [(hl2 i (by omega) hi).2.1, (hl2 j (by omega) hj).2.1]
    exact List.pairwise_iff_getElem.1 h1 i j (by omega) (by omega) hij
  · obtain ⟨k, hk, rfl⟩ := List.getElem_of_mem hf
    exact (hl2 k (by omega) hk).2.2
  · have hd := h.finds (fileName f)
    rw [hf] at hd
    obtain ⟨e, he, -⟩ := hd
    have hm := (h2 _).2 ((find_mem h.nodup).2 he)
    obtain ⟨k, hk, hke⟩ := List.getElem_of_mem hm
    have h5 := hl2 k hk (by omega)
    have h6 : folded fold (fileName l[k]) = folded fold (fileName f) := by
      rw [h5.2.1, hke]
      rfl
    have h7 := h5.2.2
    rw [lookup_folded h6, hf] at h7
    injection h7 with h7
    rw [h7]
    exact List.getElem_mem _
  · exact ⟨_, List.getElem?_eq_getElem (by omega), (hl2 k (by omega) hk).1⟩

/-- The files by index are those that are stored, with their name, size and kind. -/
def HasFiles (fold : Nat → Option Nat) (U : List Byte) (v : FatFs.Volume) (e : FileEntry) (stored : List Stored) : Prop :=
  ∃ l, Listing fold stored l ∧ FatFs.subCount fold U v e = .ok l.length ∧
    (∀ k (hk : k < l.length), ∃ s, FatFs.subByIndex fold U v e k = .ok s ∧
      FatFs.name s = some (match l[k].1 with | some name => .inl name | none => .inr l[k].2.display) ∧ FatFs.size s = l[k].2.size ∧
      (FatFs.isDirectory s = true ↔ Spec.FatFs.IsDirectory l[k])) ∧
    ∀ k, l.length ≤ k → FatFs.subByIndex fold U v e k = .err

theorem files_ok {stored : List Stored} (hok : ∀ s ∈ stored, s.Ok) {fold : Nat → Option Nat} {l : List File} (h : Listing fold stored l) : ∀ f ∈ l, f.2.Ok :=
  fun f hf => lookup_ok hok ((h.2 f).1 hf)

theorem is_name {f : File} {e : Entry} (his : Is f e) (s : Option State) :
    FatFs.name ⟨some e, s⟩ = some (match f.1 with | some name => .inl name | none => .inr f.2.display) := by
  unfold FatFs.name
  simp only [Option.map_some]
  rw [his.1, his.2]
  cases f.1 <;> rfl

theorem listed_ok {fold : Nat → Option Nat} {U : List Byte} {v : FatFs.Volume} {e : FileEntry} {st : State} {stored : List Stored} (hs : subEntries fold U v e = .ok st)
    (h : DirOk fold stored st) (hok : ∀ s ∈ stored, s.Ok) : HasFiles fold U v e stored := by
  obtain ⟨l, h1, h2, h3, h4⟩ := dirOk_listing h
  refine ⟨l, h1, ?_, fun k hk => ?_, fun k hk => ?_⟩
  · unfold FatFs.subCount
    rw [hs, R.ok_bind, h2]; rfl
  · obtain ⟨p, p1, p2⟩ := h4 k hk
    refine ⟨⟨some p.2, none⟩, ?_, is_name p2 none, ?_, isDirectory_eq (files_ok hok h1 _ (List.getElem_mem hk)) p2 none⟩
    · unfold FatFs.subByIndex
      rw [hs, R.ok_bind, p1]; rfl
    · show p.2.short.size = _
      rw [p2.2]
  · unfold FatFs.subByIndex
    rw [hs, R.ok_bind, List.getElem?_eq_none (by omega)]; rfl

theorem fat_open (fold : Nat → Option Nat) (hfold : ∀ u, u < 128 → (fold u).getD u = if 97 ≤ u ∧ u ≤ 122 then u - 32 else u)
    (U : List Byte) (hU : U.length < 2 ^ 63) (hv : Valid U) (h1 : (params U).clusters < 4085 → (params U).area < 4085)
    (h2 : (params U).clusters < 65525 → (params U).area < 65525) (root : List Stored) (hroot : Root U (reach (params U)) root) :
    ∃ v st, openVolume fold U = .ok v ∧ Fits U v.table ∧ readRoot fold U v = .ok st ∧ DirOk fold root st ∧ ∀ s ∈ root, s.Ok := by
  obtain ⟨b, hb, hm⟩ := metadata_ok hv
  have hrr := fun (v : FatFs.Volume) (hft : Fits U v.table) => readRoot_ok (v := v) hfold hv hft hU
  generalize hvol : FatFs.Volume.mk _ _ _ _ _ _ _ = v at hm
  have hft : Fits U v.table := by
    rw [← hvol]
    exact ⟨width_eq hv h1 h2, rfl, rfl, rfl, rfl, typed hv _, cluster_dvd hv⟩
  have hr : ∀ label, ∃ st, FatFs.readRoot fold U { v with rootLabel := label } = .ok st ∧ FatFs.DirOk fold root st ∧ ∀ s ∈ root, s.Ok := by
    intro label
    refine hrr _ hft ?_ ?_ ?_ hroot <;> rw [← hvol]
    · exact fun h => if_pos h
    · exact fun h => if_neg (by omega)
  obtain ⟨st0, hst0, -, -⟩ := hr v.rootLabel
  have hopen : openVolume fold U = .ok { v with rootLabel := st0.label } := by
    unfold openVolume
    rw [hb, R.ok_bind, hm, R.ok_bind, show FatFs.readRoot fold U v = .ok st0 from hst0]; rfl
  obtain ⟨st, hst, hd, hok⟩ := hr st0.label
  exact ⟨_, st, hopen, hft, hst, hd, hok⟩

/-- The entries of a directory that a file is. -/
theorem sub_entries {fold : Nat → Option Nat} (hfold : ∀ u, u < 128 → (fold u).getD u = if 97 ≤ u ∧ u ≤ 122 then u - 32 else u) {U : List Byte} {v : FatFs.Volume}
    (hf : Fits U v.table) (hU : U.length < 2 ^ 63) {f : File} {e : Entry} (hfok : f.2.Ok) (his : Is f e) (hdir : Spec.FatFs.IsDirectory f)
    (hst : firstCluster (params U).layout f < (reach (params U)).starts) {stored : List Stored}
    (hsub : Directory U (params U).layout (reach (params U)) (firstCluster (params U).layout f) stored) :
    ∃ s, subEntries fold U v ⟨some e, none⟩ = .ok s ∧ DirOk fold stored s ∧ ∀ x ∈ stored, x.Ok := by
  obtain ⟨s, hs1, hs2⟩ := readClusters_ok hfold hf hU hsub
  refine ⟨s, ?_, hs2, hsub.choose_spec.2.2.1⟩
  unfold subEntries
  simp only
  rw [if_pos ((isDirectory_eq hfok his none).2 hdir)]
  unfold readSub
  simp only
  rw [his.2]
  rw [firstCluster_eq hst] at hs1
  exact hs1

/-- C82: in every directory of a volume, the files by index are those that are found by their names, each once and in the order of the names, with
the name, size and kind that is stored; what is not a directory has none. Missing for the full property: files with the same name but for case, of which only the
last is there, and clusters out of `reach` and reserved bits, as for C57. -/
theorem C82_listing_partial (fold : Nat → Option Nat) (hfold : ∀ u, u < 128 → (fold u).getD u = if 97 ≤ u ∧ u ≤ 122 then u - 32 else u)
    (U : List Byte) (hU : U.length < 2 ^ 63) (hv : Valid U) (h1 : (params U).clusters < 4085 → (params U).area < 4085)
    (h2 : (params U).clusters < 65525 → (params U).area < 65525) (root : List Stored) (hroot : Root U (reach (params U)) root) :
    ∃ v, openVolume fold U = .ok v ∧ (∃ e, rootEntry fold U v = .ok e ∧ HasFiles fold U v e root) ∧
      ∀ path f, Path fold U (params U).layout (reach (params U)) root path (some f) → ∃ e, byPath fold U v ([] :: path) = .ok (some e) ∧
        (Spec.FatFs.IsDirectory f → firstCluster (params U).layout f < (reach (params U)).starts →
          ∀ stored, Directory U (params U).layout (reach (params U)) (firstCluster (params U).layout f) stored → HasFiles fold U v e stored) ∧
        (¬ Spec.FatFs.IsDirectory f → FatFs.subCount fold U v e = .ok 0 ∧ ∀ k, FatFs.subByIndex fold U v e k = .err) := by
  obtain ⟨v, st, hopen, hft, hst, hd, hok⟩ := fat_open fold hfold U hU hv h1 h2 root hroot
  have hre : rootEntry fold U v = .ok ⟨none, some st⟩ := by unfold rootEntry; rw [hst]; rfl
  refine ⟨v, hopen, ⟨_, hre, listed_ok rfl hd hok⟩, fun path f hp => ?_⟩
  have hw := walk_ok (v := v) hfold hft hU hp ⟨none, some st⟩ st hok rfl hd
  have hby : byPath fold U v ([] :: path) = FatFs.walk fold U v ⟨none, some st⟩ path := by
    unfold byPath
    simp only
    rw [if_neg (by simp), hre]; rfl
  obtain ⟨e, he, his, hfok⟩ := hw
  refine ⟨⟨some e, none⟩, hby.trans he, fun hdir hstart stored hsub => ?_, fun hnd => ?_⟩
  · obtain ⟨s, s1, s2, s3⟩ := sub_entries hfold hft hU hfok his hdir hstart hsub
    exact listed_ok s1 s2 s3
  · have hno : subEntries fold U v ⟨some e, none⟩ = .ok FatDir.init := by
      unfold subEntries
      simp only
      rw [if_neg fun h => hnd ((isDirectory_eq hfok his none).1 h)]
    unfold FatFs.subCount FatFs.subByIndex
    rw [hno]
    exact ⟨rfl, fun k => rfl⟩

/-- The root directory has "a.txt" and "dé", which is a directory; the long name comes second. -/
example : Valid sampleVolume ∧ Root sampleVolume (reach (params sampleVolume)) sampleRoot ∧
    Listing sampleFold sampleRoot [(none, sampleFile), (some [0x64, 0xe9], sampleDirectory)] := by
  refine ⟨sample_valid, sample_root, by decide +kernel, fun f => ⟨fun hf => ?_, fun hf => ?_⟩⟩
  · simp only [List.mem_cons, List.not_mem_nil, or_false] at hf
    rcases hf with rfl | rfl
    · rfl
    · rfl
  · have := List.mem_of_find?_eq_some hf
    rw [List.mem_reverse] at this
    exact this

/-- C82 is violated if two files of a directory have the same name but for case: there are fewer files than are stored. -/
theorem C82_violated_case (fold : Nat → Option Nat) (U : List Byte) (v : FatFs.Volume) (e : FileEntry) (stored : List Stored) (h : HasFiles fold U v e stored)
    (before after : List File) (f g : File) (hs : stored.flatMap Stored.files = before ++ f :: after) (hg : g ∈ after)
    (hn : folded fold (fileName f) = folded fold (fileName g)) :
    ∃ n, FatFs.subCount fold U v e = .ok n ∧ n < (stored.flatMap Stored.files).length := by
  obtain ⟨l, hl, hc, -⟩ := h
  refine ⟨_, hc, ?_⟩
  have hnd : (l.map fun f => folded fold (fileName f)).Nodup := by
    rw [List.Nodup, List.pairwise_map]
    exact hl.1.imp fun {a b} hab he => by rw [he] at hab; exact List.lt_irrefl _ hab
  have hsub : (l.map fun f => folded fold (fileName f)) ⊆ (before ++ after).map fun f => folded fold (fileName f) := by
    intro x hx
    obtain ⟨a, ha, rfl⟩ := List.mem_map.1 hx
    have hm := List.mem_of_find?_eq_some ((hl.2 a).1 ha)
    rw [List.mem_reverse, hs] at hm
    rcases List.mem_append.1 hm with hm | hm
    · exact List.mem_map.2 ⟨a, List.mem_append_left _ hm, rfl⟩
    · rcases List.mem_cons.1 hm with rfl | hm
      · exact List.mem_map.2 ⟨g, List.mem_append_right _ hg, hn.symm⟩
      · exact List.mem_map.2 ⟨a, List.mem_append_right _ hm, rfl⟩
  have := (List.subperm_of_subset hnd hsub).length_le
  rw [hs]
  simp only [List.length_map, List.length_append, List.length_cons] at this ⊢
  omega

/-- The files "A.TXT" and "a.txt". -/
example : ∃ f ∈ [(some [0x61, 0x2e, 0x74, 0x78, 0x74], sampleInner)],
    folded sampleFold (fileName (none, sampleFile)) = folded sampleFold (fileName f) ∧
    [Stored.file none sampleFile, .file (some ([0x61, 0x2e, 0x74, 0x78, 0x74], 0#8)) sampleInner].flatMap Stored.files = [] ++ (none, sampleFile) :: [f] :=
  ⟨_, List.mem_singleton.2 rfl, by decide +kernel, rfl⟩

end Keramics.Props
