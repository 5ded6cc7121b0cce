import Verif.Model.InfoHierarchy
import Verif.Spec.InfoHierarchy
import Verif.Props.InfoTool
import Verif.Props.ExtFileSystem
import Verif.Props.NtfsFileSystem

/-!
# C81: the hierarchy of a file system
-/

namespace Keramics.Props
open Keramics.InfoTool HashTool
open Spec (codePoints doubled rootedText streamText Utf8Of Plain)

theorem join_slash (x : List Nat) (xs : List (List Nat)) :
    0x2f :: [0x2f].intercalate (x :: xs) = (x :: xs).flatMap fun name => codePoints "/" ++ name := by
  induction xs generalizing x with
  | nil => simp [List.intercalate, codePoints]
  | cons y ys ih =>
    have h := ih y
    rw [List.flatMap_cons, ← h]
    simp [List.intercalate, codePoints]

theorem path_pushed {E : Type} {w : Walk E} {e : E} {name : List Nat} (above : List (List Nat)) (hr : w.isRoot e = false) (ht : w.text e = .ok name) :
    entryPath w above e = .ok (rootedText (above ++ [name]), above ++ [name]) := by
  unfold entryPath
  rw [hr, if_neg (by simp), ht, R.ok_bind]
  have : above ++ [name] ≠ [] := by simp
  unfold rootedText
  rw [if_neg this]
  obtain ⟨x, xs, hx⟩ : ∃ x xs, above ++ [name] = x :: xs := by
    cases h : above ++ [name] with
    | nil => exact absurd h this
    | cons x xs => exact ⟨x, xs, rfl⟩
  rw [hx, join_slash]
  rfl

theorem path_root {E : Type} {w : Walk E} {e : E} (hr : w.isRoot e = true) : entryPath w [] e = .ok (rootedText [], []) := by
  unfold entryPath
  rw [hr, if_pos rfl]
  rfl

theorem partitions_eq {X : Type} (f : X → List (List Nat)) (one : Nat → Out) (l : List X) (i : Nat) (h : ∀ k (hk : k < l.length), one (i + k) = (f l[k], .ok ())) :
    partitions one l.length i = (l.flatMap f, .ok ()) := by
  induction l generalizing i with
  | nil => rfl
  | cons x xs ih =>
    have h0 : one i = (f x, .ok ()) := h 0 (by simp)
    have h1 := ih (i + 1) fun k hk => by
      have := h (k + 1) (by simp; omega)
      rw [show i + 1 + k = i + (k + 1) by omega]
      simpa using this
    show (one i).andThen (partitions one xs.length (i + 1)) = _
    rw [h0, h1]
    simp [Out.andThen]

theorem hierarchy_step {E X : Type} {w : Walk E} {fuel : Nat} {above above' : List (List Nat)} {path : List Nat} {e : E} {own : List (List Nat)}
    (f : X → List (List Nat)) (l : List X) (hp : entryPath w above e = .ok (path, above')) (hl : w.lines e path = (own, .ok ())) (hc : w.count e = .ok l.length)
    (hs : ∀ k (hk : k < l.length), ∃ s, w.sub e k = .ok s ∧ hierarchyEntry w fuel above' s = (f l[k], .ok ())) :
    hierarchyEntry w (fuel + 1) above e = (own ++ l.flatMap f, .ok ()) := by
  rw [hierarchyEntry, hp]
  simp only [after]
  rw [hl, hc]
  simp only [after]
  rw [partitions_eq f _ l 0 fun k hk => by
    obtain ⟨s, h1, h2⟩ := hs k hk
    rw [Nat.zero_add, h1]
    exact h2]
  rfl

section Ext
open Spec.ExtFs ExtFs

private theorem sorted_unique {l m : List (List Byte × Nat)} (hl : l.Pairwise fun a b => a.1 < b.1) (hm : m.Pairwise fun a b => a.1 < b.1) (h : ∀ x, x ∈ l ↔ x ∈ m) :
    l = m := by
  have nd : ∀ {l : List (List Byte × Nat)}, l.Pairwise (fun a b => a.1 < b.1) → l.Nodup := fun hl =>
    hl.imp fun {a b} hab e => by rw [e] at hab; exact List.lt_irrefl _ hab
  have hp : l.Perm m := (List.perm_ext_iff_of_nodup (nd hl) (nd hm)).2 h
  exact List.Perm.eq_of_pairwise (fun a b _ _ h1 h2 => absurd (List.lt_trans h1 h2) (List.lt_irrefl _)) hl hm hp

private theorem extEntry {U : List Byte} (hv : Valid U) (hh : Handled U) (hU : U.length < 2 ^ 63) {fs : Fs} (hfs : FsOk U fs) (text : List Byte → List Nat) :
    ∀ d fuel, d ≤ fuel → ∀ n paths, Below U d n paths → (∀ names ∈ paths, ∀ name ∈ names, Utf8Of name (text name)) →
      ∀ above above' e l name, EntryOk U fs n l name e → entryPath (extWalk U fs) above e = .ok (rootedText above', above') →
        hierarchyEntry (extWalk U fs) fuel above e = (([] :: paths).map (fun names => rootedText (above' ++ names.map fun name => doubled (text name))), .ok ()) := by
  intro d
  induction d with
  | zero => intro _ _ _ _ hb; exact absurd hb (by simp [Below])
  | succ d ih =>
    intro fuel hf n paths hb ht above above' e l name he hp
    obtain ⟨fuel, rfl⟩ : ∃ g, fuel = g + 1 := ⟨fuel - 1, by omega⟩
    obtain ⟨⟨hfile, -⟩, hb⟩ := hb
    have hlines : (extWalk U fs).lines e (rootedText above') = ([rootedText above'], .ok ()) := rfl
    rcases hb with ⟨hk, rfl⟩ | ⟨records, sub, hdir, hsort, hmem, hsub, rfl⟩
    · have hno : subEntries U fs e = .ok [] := by
        unfold subEntries
        rw [if_neg fun h => hk ((isDirectory_ok he).1 h)]
      have := hierarchy_step (fuel := fuel) (X := Unit) (fun _ => []) [] hp hlines (by show subCount U fs e = _; unfold subCount; rw [hno]; rfl) (by simp)
      rw [this]
      simp
    · have hse := subEntries_ok hU hfs (file_length hv hfile) he hdir
      have hs2 : Sorted (records.foldl keep []) := sorted_keep List.Pairwise.nil records
      have heq : records.foldl keep [] = sub.map fun x => (x.1, x.2.1) := by
        refine sorted_unique hs2 ?_ fun x => ?_
        · rw [List.pairwise_map]; exact hsort
        · obtain ⟨name, m⟩ := x
          rw [sorted_find hs2, find_keep (directory_ok hdir)]
          have := hmem name m
          constructor
          · intro h
            have h' : lookup records name = some m := by simpa using h
            obtain ⟨b, hb⟩ := this.2 h'
            exact List.mem_map.2 ⟨_, hb, rfl⟩
          · intro h
            obtain ⟨⟨a, b, c⟩, h1, h2⟩ := List.mem_map.1 h
            simp only [Prod.mk.injEq] at h2
            obtain ⟨rfl, rfl⟩ := h2
            have := this.1 ⟨c, h1⟩
            simpa using this
      rw [heq] at hse
      have := hierarchy_step (fuel := fuel)
        (fun x : List Byte × Nat × List (List (List Byte)) =>
          ([] :: x.2.2).map fun names => rootedText ((above' ++ [doubled (text x.1)]) ++ names.map fun name => doubled (text name))) sub hp hlines
        (by show subCount U fs e = _; unfold subCount; rw [hse]; simp)
        (fun k hk => by
          have hx := hsub sub[k] (List.getElem_mem hk)
          have hb2 := hx.2
          obtain ⟨d', rfl⟩ : ∃ g, d = g + 1 := by
            cases d with
            | zero => exact absurd hb2 (by simp [Below])
            | succ d => exact ⟨d, rfl⟩
          obtain ⟨⟨hf', l', hfh'⟩, -⟩ := id hb2
          obtain ⟨s, s1, s2⟩ := ofEntry_ok hv hh hU hfs hf' hfh' sub[k].1
          have hname : ∀ names ∈ [sub[k].1] :: sub[k].2.2.map (sub[k].1 :: ·), ∀ name ∈ names, Utf8Of name (text name) := fun names hn =>
            ht names (List.mem_flatMap.2 ⟨sub[k], List.getElem_mem hk, hn⟩)
          refine ⟨s, ?_, ?_⟩
          · show subByIndex U fs e k = _
            unfold subByIndex
            rw [hse, R.ok_bind, List.getElem?_map, List.getElem?_eq_getElem hk]
            exact s1
          · refine ih fuel (by omega) _ _ hb2 (fun names hn name hm => ?_) _ _ s l' (some sub[k].1) s2 ?_
            · exact hname (sub[k].1 :: names) (List.mem_cons_of_mem _ (List.mem_map.2 ⟨names, hn, rfl⟩)) name (List.mem_cons_of_mem _ hm)
            · refine path_pushed above' ?_ ?_
              · show decide (s.number = 2) = false
                rw [s2.number]
                exact decide_eq_false hx.1
              · show extText s = _
                unfold extText
                rw [s2.name]
                exact bytes_text (hname _ List.mem_cons_self _ List.mem_cons_self))
      rw [this]
      simp [List.map_flatMap, Function.comp_def]

/-- C81, what holds of ext: "/" and then a line for every path, each directory before what is in it, and the names in order. Backslashes are
twice. Missing: names that are not UTF-8, names with a line feed, and entries that lead back to a directory above them. -/
theorem C81_ext_partial (U : List Byte) (hv : Valid U) (hh : Handled U) (hU : U.length < 2 ^ 63) (depth : Nat) (paths : List (List (List Byte)))
    (hb : Below U depth 2 paths) (text : List Byte → List Nat) (ht : ∀ names ∈ paths, ∀ name ∈ names, Utf8Of name (text name)) (fuel : Nat) (hf : depth ≤ fuel) :
    extHierarchy U fuel = (codePoints "Extended File System (ext) hierarchy:" :: codePoints "/" ::
      paths.map (fun names => rootedText (names.map fun name => doubled (text name))), .ok ()) := by
  obtain ⟨fs, e1, hfs⟩ := openFs_ok hv hh hU
  obtain ⟨d, rfl⟩ : ∃ d, depth = d + 1 := by
    cases depth with
    | zero => exact absurd hb (by simp [Below])
    | succ d => exact ⟨d, rfl⟩
  obtain ⟨⟨hfile, l, hfh⟩, -⟩ := id hb
  obtain ⟨e, e2, he⟩ := byIdentifier_ok hv hh hU hfs hfile hfh
  have hroot : rootEntry U fs = .ok (some e) := by
    unfold rootEntry
    rw [if_neg, e2]
    · rfl
    · intro h0
      have := e2
      unfold byIdentifier at this
      obtain ⟨_, _, h⟩ := R.bind_eq_ok.1 this
      obtain ⟨_, h1, _⟩ := R.bind_eq_ok.1 h
      have := (R.require_eq_ok.1 h1)
      omega
  have h := extEntry hv hh hU hfs text (d + 1) fuel hf 2 paths hb ht [] [] e l none he
    (path_root (by show decide (e.number = 2) = true; rw [he.number]; rfl))
  unfold extHierarchy
  rw [e1]
  simp only [HashTool.after]
  rw [hroot]
  simp only [HashTool.after]
  rw [h]
  simp [Out.andThen, say, rootedText]

private theorem lookup_unique {U : List Byte} (hv : Valid U) (hh : Handled U) (hU : U.length < 2 ^ 63) {n : Nat} (hn : Readable U n) {r r' : List Record}
    (h : Directory U (inode U n) r) (h' : Directory U (inode U n) r') (name : List Byte) : lookup r name = lookup r' name := by
  obtain ⟨fs, e1, hfs⟩ := openFs_ok hv hh hU
  obtain ⟨hf, l, hfh⟩ := hn
  obtain ⟨e, e2, he⟩ := byIdentifier_ok hv hh hU hfs hf hfh
  have h1 := subEntries_ok hU hfs (file_length hv hf) he h
  have h2 := subEntries_ok hU hfs (file_length hv hf) he h'
  rw [h1] at h2
  have h3 : r.foldl keep [] = r'.foldl keep [] := by injection h2
  have := find_keep (directory_ok h) (name := name)
  rw [h3, find_keep (directory_ok h')] at this
  cases ha : lookup r name <;> cases hb : lookup r' name <;> simp_all

/-- C81: the paths that are listed are all those at which there is a file, and none is listed twice. -/
theorem C81_paths (U : List Byte) (hv : Valid U) (hh : Handled U) (hU : U.length < 2 ^ 63) (depth n : Nat) (paths : List (List (List Byte)))
    (hb : Below U depth n paths) :
    (∀ names, names ∈ paths ↔ names ≠ [] ∧ ∃ m, Path U (Readable U) n names (some m)) ∧ paths.Nodup := by
  induction depth generalizing n paths with
  | zero => exact absurd hb (by simp [Below])
  | succ depth ih =>
    obtain ⟨hn, ⟨hk, rfl⟩ | ⟨records, l, hdir, hsort, hmem, hsub, rfl⟩⟩ := hb
    · refine ⟨fun names => ⟨fun h => absurd h (by simp), fun ⟨hne, m, hp⟩ => ?_⟩, List.nodup_nil⟩
      cases hp with
      | here => exact absurd rfl hne
      | step _ hd => exact absurd hd.1 hk
    · have readable : ∀ x ∈ l, Readable U x.2.1 := fun x hx => by
        have := (hsub x hx).2
        cases depth with
        | zero => exact absurd this (by simp [Below])
        | succ d => exact this.1
      refine ⟨fun names => ⟨fun h => ?_, fun ⟨hne, m, hp⟩ => ?_⟩, ?_⟩
      · obtain ⟨x, hx, h⟩ := List.mem_flatMap.1 h
        have hl := (hmem x.1 x.2.1).1 ⟨x.2.2, hx⟩
        rcases List.mem_cons.1 h with rfl | h
        · exact ⟨by simp, x.2.1, .step hn hdir hl (.here (readable x hx))⟩
        · obtain ⟨rest, hr, rfl⟩ := List.mem_map.1 h
          obtain ⟨m, hm⟩ := (((ih _ _ (hsub x hx).2).1 rest).1 hr).2
          exact ⟨by simp, m, .step hn hdir hl hm⟩
      · cases hp with
        | here => exact absurd rfl hne
        | @step _ name rest records' m' _ _ hd hl hp =>
          rw [lookup_unique hv hh hU hn hd hdir] at hl
          obtain ⟨below, hx⟩ := (hmem name m').2 hl
          refine List.mem_flatMap.2 ⟨_, hx, ?_⟩
          cases rest with
          | nil => exact List.mem_cons_self
          | cons a rest =>
            exact List.mem_cons_of_mem _ (List.mem_map.2 ⟨a :: rest, ((ih _ _ (hsub _ hx).2).1 _).2 ⟨by simp, m, hp⟩, rfl⟩)
      · refine List.nodup_flatMap.2 ⟨fun x hx => ?_, hsort.imp fun {a b} hab => ?_⟩
        · have := ih _ _ (hsub x hx).2
          refine List.nodup_cons.2 ⟨fun h => ?_, this.2.map fun a b h => by injection h⟩
          obtain ⟨rest, hr, he⟩ := List.mem_map.1 h
          injection he with _ he
          exact ((this.1 rest).1 hr).1 he
        · have hne : a.1 ≠ b.1 := fun e => by rw [e] at hab; exact List.lt_irrefl _ hab
          intro p h1 h2
          have head : ∀ (x : List Byte × Nat × List (List (List Byte))), p ∈ [x.1] :: x.2.2.map (fun names => x.1 :: names) → p.head? = some x.1 := fun x h => by
            rcases List.mem_cons.1 h with rfl | h
            · rfl
            · obtain ⟨rest, _, rfl⟩ := List.mem_map.1 h
              rfl
          have h1 := head a h1
          rw [head b h2] at h1
          injection h1 with h1
          exact hne h1.symm

theorem sample_below : Below ExtSample.volume 2 2 [[[0x61#8]], [[0x66#8, 0x69#8, 0x6c#8, 0x65#8]]] := by
  refine ⟨ExtSample.readable2, Or.inr ⟨ExtSample.entries, [([0x61#8], 4, []), ([0x66#8, 0x69#8, 0x6c#8, 0x65#8], 3, [])], ExtSample.directory2, by decide +kernel, ?_, ?_, rfl⟩⟩
  · intro name m
    have hs : Sorted (ExtSample.entries.foldl keep []) := sorted_keep List.Pairwise.nil _
    have hl : ExtSample.entries.foldl keep [] = [([0x61#8], 4), ([0x66#8, 0x69#8, 0x6c#8, 0x65#8], 3)] := by decide +kernel
    have : (name, m) ∈ ExtSample.entries.foldl keep [] ↔ lookup ExtSample.entries name = some m := by
      rw [sorted_find hs, find_keep (directory_ok ExtSample.directory2)]
      simp
    rw [← this, hl]
    constructor
    · rintro ⟨b, hb⟩
      simp only [List.mem_cons, Prod.mk.injEq, List.not_mem_nil, or_false] at hb ⊢
      rcases hb with ⟨h1, h2, -⟩ | ⟨h1, h2, -⟩
      · exact Or.inl ⟨h1, h2⟩
      · exact Or.inr ⟨h1, h2⟩
    · intro h
      refine ⟨[], ?_⟩
      simpa using h
  · intro x hx
    simp only [List.mem_cons, List.not_mem_nil, or_false] at hx
    rcases hx with rfl | rfl
    · exact ⟨by decide, ExtSample.readable4, Or.inl ⟨by decide +kernel, rfl⟩⟩
    · exact ⟨by decide, ExtSample.readable3, Or.inl ⟨by decide +kernel, rfl⟩⟩

/-- The volume has "a" and "file". -/
example : Valid ExtSample.volume ∧ Handled ExtSample.volume ∧ extHierarchy ExtSample.volume 7 =
    ([codePoints "Extended File System (ext) hierarchy:", codePoints "/", codePoints "/a", codePoints "/file"], .ok ()) := by
  refine ⟨ExtSample.valid, ExtSample.handled, ?_⟩
  rw [C81_ext_partial ExtSample.volume ExtSample.valid ExtSample.handled (by rw [ExtSample.length]; decide) 2 _ sample_below (List.map BitVec.toNat)
    (fun names hn name hm => by
      simp only [List.mem_cons, List.not_mem_nil, or_false] at hn
      rcases hn with rfl | rfl
      · obtain rfl := List.mem_singleton.1 hm
        exact ⟨by unfold Spec.Utf8.isScalar; decide, by decide⟩
      · obtain rfl := List.mem_singleton.1 hm
        exact ⟨by unfold Spec.Utf8.isScalar; decide, by decide⟩) 7 (by omega)]
  decide +kernel

/-- A volume with one entry in the root directory. -/
def volume81 (number : Nat) (name : List Byte) : List Byte := ExtSample.build (ExtSample.superblock 6 8192 1 128 0x42 2)
  [ExtSample.zeros 128, ExtSample.inodeBytes 0x41ed 1024 2 0 0 (leBytes 4 4) [], ExtSample.inodeBytes 0x81a4 5 1 0x80000 0 ExtSample.extents []]
  (([⟨2, 2, [0x2e#8], ExtSample.zeros 3⟩, ⟨2, 2, [0x2e#8, 0x2e#8], ExtSample.zeros 2⟩, ⟨number, 1, name, ExtSample.zeros (992 - name.length)⟩] : List Record).flatMap Record.bytes ++
    ExtSample.zeros 1024)

/-- A run that returns `Ok`, with a test of the result. -/
private def okAnd {α : Type} (test : α → Bool) : R α → Bool
  | .ok a => test a
  | _ => false

private theorem okAnd_ok {α : Type} {test : α → Bool} {r : R α} (h : okAnd test r = true) : ∃ a, r = .ok a ∧ test a = true := by
  cases r with
  | ok a => exact ⟨a, rfl, h⟩
  | err => simp [okAnd] at h
  | panic => simp [okAnd] at h

/-- C81 is violated: a line feed of a name is printed as it is, and what is after it looks like another line. -/
theorem C81_violated_feed : ∃ U fs e, openFs U = .ok fs ∧ byPath U fs [[], [0x61#8, 0x0a#8, 0x62#8]] = .ok (some e) ∧
    extHierarchy U 2 = ([codePoints "Extended File System (ext) hierarchy:", codePoints "/", codePoints "/a\nb"], .ok ()) := by
  have h : okAnd (fun fs => okAnd Option.isSome (byPath (volume81 3 [0x61#8, 0x0a#8, 0x62#8]) fs [[], [0x61#8, 0x0a#8, 0x62#8]])) (openFs (volume81 3 [0x61#8, 0x0a#8, 0x62#8])) = true := by
    decide +kernel
  obtain ⟨fs, h1, h2⟩ := okAnd_ok h
  obtain ⟨o, h2, h3⟩ := okAnd_ok h2
  obtain ⟨e, rfl⟩ := Option.isSome_iff_exists.1 h3
  exact ⟨_, fs, e, h1, h2, by decide +kernel⟩

/-- C81 is violated: the tool panics at a name that is not UTF-8. -/
theorem C81_violated_name : ∃ U fs e, openFs U = .ok fs ∧ byPath U fs [[], [0xff#8]] = .ok (some e) ∧
    extHierarchy U 2 = ([codePoints "Extended File System (ext) hierarchy:", codePoints "/"], .panic) := by
  have h : okAnd (fun fs => okAnd Option.isSome (byPath (volume81 3 [0xff#8]) fs [[], [0xff#8]])) (openFs (volume81 3 [0xff#8])) = true := by
    decide +kernel
  obtain ⟨fs, h1, h2⟩ := okAnd_ok h
  obtain ⟨o, h2, h3⟩ := okAnd_ok h2
  obtain ⟨e, rfl⟩ := Option.isSome_iff_exists.1 h3
  exact ⟨_, fs, e, h1, h2, by decide +kernel⟩

/-- C81 is violated: if an entry of the root directory is the root directory, "/" is printed until the stack is used up. -/
theorem C81_violated_endless : ∃ U fs, openFs U = .ok fs ∧ ∀ fuel,
    extHierarchy U fuel = (codePoints "Extended File System (ext) hierarchy:" :: List.replicate fuel (codePoints "/"), .panic) := by
  have h : okAnd (fun fs => okAnd (fun e => okAnd (fun n => n = 1) (subCount (volume81 2 [0x61#8]) fs e) && e.number = 2 && (fs.super.inodes ≠ 0) &&
      okAnd (fun e' => e' = { e with name := some [0x61#8] }) (subByIndex (volume81 2 [0x61#8]) fs e 0)) (byIdentifier (volume81 2 [0x61#8]) fs 2))
      (openFs (volume81 2 [0x61#8])) = true := by decide +kernel
  obtain ⟨fs, h1, h2⟩ := okAnd_ok h
  obtain ⟨e, h2, h3⟩ := okAnd_ok h2
  simp only [Bool.and_eq_true, decide_eq_true_eq] at h3
  obtain ⟨⟨⟨h3, hn⟩, hi⟩, h4⟩ := h3
  obtain ⟨n, h3, h5⟩ := okAnd_ok h3
  obtain ⟨e', h4, h6⟩ := okAnd_ok h4
  obtain rfl := of_decide_eq_true h5
  obtain rfl := of_decide_eq_true h6
  refine ⟨_, fs, h1, fun fuel => ?_⟩
  have key : ∀ fuel name, hierarchyEntry (extWalk (volume81 2 [0x61#8]) fs) fuel [] { e with name := name } = (List.replicate fuel (codePoints "/"), .panic) := by
    intro fuel
    induction fuel with
    | zero => intro name; rfl
    | succ fuel ih =>
      intro name
      have hp : entryPath (extWalk (volume81 2 [0x61#8]) fs) [] { e with name := name } = .ok (rootedText [], []) :=
        path_root (by show decide (e.number = 2) = true; rw [hn]; rfl)
      rw [hierarchyEntry, hp]
      simp only [HashTool.after]
      have hc : (extWalk (volume81 2 [0x61#8]) fs).count { e with name := name } = .ok 1 := h3
      have hs : (extWalk (volume81 2 [0x61#8]) fs).sub { e with name := name } 0 = .ok { e with name := some [0x61#8] } := h4
      rw [hc]
      simp only [HashTool.after, partitions]
      rw [hs]
      simp only [HashTool.after]
      rw [ih]
      rfl
  unfold extHierarchy rootEntry
  rw [h1]
  simp only [HashTool.after]
  rw [if_neg hi, h2, R.ok_bind]
  simp only [R.pure_eq, HashTool.after]
  have := key fuel e.name
  rw [show ({ e with name := e.name } : ExtFs.Entry) = e from rfl] at this
  rw [this]
  rfl

end Ext

section Ntfs
open Spec.NtfsFs

theorem units_text {text : List Nat} (h : ∀ c ∈ text, Spec.Utf8.isScalar c) : Path.ucs2Text text = doubled text := by
  unfold Path.ucs2Text doubled
  induction text with
  | nil => rfl
  | cons c t ih =>
    have hc : Display.isChar c = true := by
      have := h c List.mem_cons_self
      unfold Spec.Utf8.isScalar at this
      simp [Display.isChar]
      omega
    rw [List.flatMap_cons, List.flatMap_cons, ih fun c' h' => h c' (List.mem_cons_of_mem _ h'), if_pos hc]

private theorem flatMap_singleton {X Y : Type} (f : X → Y) (l : List X) : (l.flatMap fun x => [f x]) = l.map f := by
  induction l with
  | nil => rfl
  | cons x xs ih => simp [List.flatMap_cons, ih]

private theorem ntfsEntry {U : List Byte} {V : Spec.NtfsFs.Volume} (hV : IsVolume U V) (hU : U.length < 2 ^ 63) {v : NtfsFs.Volume} (hv : NtfsFs.VolumeOk U V v)
    (ho : NtfsFs.openVolume U = .ok v) :
    ∀ d fuel, d ≤ fuel → ∀ n streams, BelowStreams U V d n streams →
      ∀ above above' e, NtfsFs.fileByNumber U v n = .ok e.file → entryPath (ntfsWalk U v) above e = .ok (rootedText above', above') →
        hierarchyEntry (ntfsWalk U v) fuel above e = (streams.map (fun s => rootedText (above' ++ s.1.map Path.ucs2Text) ++ match s.2 with
          | some name => codePoints ":" ++ Path.ucs2Text name
          | none => []), .ok ()) := by
  intro d
  induction d with
  | zero => intro _ _ _ _ hb; exact absurd hb (by simp [BelowStreams])
  | succ d ih =>
    intro fuel hf n streams hb above above' e he hp
    obtain ⟨fuel, rfl⟩ : ∃ g, fuel = g + 1 := ⟨fuel - 1, by omega⟩
    obtain ⟨as, below, hfile, rfl, hb⟩ := hb
    obtain ⟨v', f', q1, q2, -, -, -, -, hcount, hname, -⟩ := C62_forks_partial U V hV hU n as hfile
    rw [ho] at q1; injection q1 with q1; subst q1
    rw [he] at q2; injection q2 with q2; subst q2
    have hlines : (ntfsWalk U v).lines e (rootedText above') = ((streamNames as).map (fun s => rootedText above' ++ match s with
          | some name => codePoints ":" ++ Path.ucs2Text name
          | none => []), .ok ()) := by
      show ntfsLines e (rootedText above') = _
      unfold ntfsLines
      rw [hcount, ← flatMap_singleton]
      refine partitions_eq _ _ _ 0 fun k hk => ?_
      rw [Nat.zero_add, (hname k _ (List.getElem?_eq_getElem hk)).1]
      simp only [HashTool.after, say]
      cases hx : (streamNames as)[k] with
      | none => simp [InfoTool.forkLine]
      | some name => simp only [InfoTool.forkLine]; rw [List.append_assoc]
    rcases hb with ⟨hk, rfl⟩ | ⟨fold, es, sub, hdir, hdos, hsub1, hsub, rfl⟩
    · obtain ⟨v', f', q1, q2, -, hz, -⟩ := C63_file_partial U V hV hU n as hfile hk
      rw [ho] at q1; injection q1 with q1; subst q1
      rw [he] at q2; injection q2 with q2; subst q2
      have := hierarchy_step (fuel := fuel) (X := Unit) (fun _ => []) [] hp hlines hz (by simp)
      rw [this]
      simp [Function.comp_def]
    · obtain ⟨v', f', q1, q2, -, hz, hi, -⟩ := C63_list_partial U V hV hU n as hfile fold es hdir hdos
      rw [ho] at q1; injection q1 with q1; subst q1
      rw [he] at q2; injection q2 with q2; subst q2
      have hlen : (listed es).length = sub.length := by rw [← hsub1, List.length_map]
      have := hierarchy_step (fuel := fuel)
        (fun x : DirectoryEntry × List (List (List Nat) × Option (List Nat)) => x.2.map (fun s => rootedText ((above' ++ [Path.ucs2Text x.1.name]) ++ s.1.map Path.ucs2Text) ++ match s.2 with
          | some name => codePoints ":" ++ Path.ucs2Text name
          | none => [])) sub hp hlines (by rw [← hlen]; exact hz)
        (fun k hk => by
          have hx := hsub sub[k] (List.getElem_mem hk)
          have hb2 := hx.2
          obtain ⟨d', rfl⟩ : ∃ g, d = g + 1 := by
            cases d with
            | zero => exact absurd hb2 (by simp [BelowStreams])
            | succ d => exact ⟨d, rfl⟩
          obtain ⟨as', -, hf', -⟩ := id hb2
          have hl : (listed es)[k]? = some sub[k].1 := by
            rw [← hsub1, List.getElem?_map, List.getElem?_eq_getElem hk]; rfl
          obtain ⟨x, x1, x2, x3⟩ := hi k _ hl as' hf'
          refine ⟨x, x1, ih fuel (by omega) _ _ hb2 _ _ x x2 ?_⟩
          · refine path_pushed above' ?_ ?_
            · obtain ⟨f', g1, -, g2⟩ := NtfsFs.fileByNumber_ok hV hU hv hf'
              rw [x2] at g1; injection g1 with g1
              show x.file.isRoot = false
              unfold NtfsFs.File.isRoot
              rw [g1, g2.number]
              exact decide_eq_false hx.1
            · show R.ok _ = _
              rw [x3.2.1])
      rw [this]
      simp [List.map_flatMap, Function.comp_def]

/-- C81, what holds of NTFS: a line for every data stream. Missing: files without data streams, such as directories, names with surrogates, names
with a line feed, and entries that lead back to a directory above them. -/
theorem C81_ntfs_partial (U : List Byte) (V : Spec.NtfsFs.Volume) (hV : IsVolume U V) (hU : U.length < 2 ^ 63) (depth : Nat)
    (streams : List (List (List Nat) × Option (List Nat))) (hb : BelowStreams U V depth 5 streams) (hp : ∀ s ∈ streams, Plain s) (fuel : Nat) (hf : depth ≤ fuel) :
    ntfsHierarchy U fuel = (codePoints "New Technologies File System (NTFS) hierarchy:" :: streams.map streamText, .ok ()) := by
  obtain ⟨v, v1, v2⟩ := NtfsFs.openVolume_ok hV hU
  obtain ⟨d, rfl⟩ : ∃ d, depth = d + 1 := by
    cases depth with
    | zero => exact absurd hb (by simp [BelowStreams])
    | succ d => exact ⟨d, rfl⟩
  obtain ⟨as, -, hfile, -⟩ := id hb
  obtain ⟨f, f1, -, f2⟩ := NtfsFs.fileByNumber_ok hV hU v2 hfile
  have h := ntfsEntry hV hU v2 v1 (d + 1) fuel hf 5 streams hb [] [] ⟨f, none⟩ f1
    (path_root (by show f.isRoot = true; unfold NtfsFs.File.isRoot; rw [f2.number]; rfl))
  unfold ntfsHierarchy
  rw [v1]
  simp only [HashTool.after]
  rw [f1]
  simp only [HashTool.after]
  rw [h]
  simp only [say, Out.andThen, List.nil_append, List.singleton_append, Prod.mk.injEq, List.cons.injEq, and_true, true_and]
  refine List.map_congr_left fun s hs => ?_
  have hs := hp s hs
  unfold streamText
  rw [List.map_congr_left fun name hn => units_text (hs.1 name hn)]
  cases h2 : s.2 with
  | none => rfl
  | some name => simp only; rw [units_text (hs.2 name h2)]

theorem sample_streams : BelowStreams NtfsSample.U NtfsSample.V 2 5 [([[0x46, 0x69, 0x6c, 0x65]], none), ([[0x78]], none), ([[0x78]], some [0x73])] := by
  have leaf : ∀ {n as}, IsFile NtfsSample.U NtfsSample.V.mft n as → NotDirectory as → BelowStreams NtfsSample.U NtfsSample.V 1 n ((streamNames as).map fun s => ([], s)) :=
    fun {n as} h hd => ⟨as, [], h, by simp, Or.inl ⟨hd, rfl⟩⟩
  refine ⟨NtfsSample.attrs5, _, NtfsSample.file5, ?_, Or.inr ⟨_, NtfsSample.rootEntries,
    [(NtfsSample.fileA, (streamNames NtfsSample.attrs7).map fun s => ([], s)), (NtfsSample.fileF, (streamNames (NtfsSample.attrs8 ++ NtfsSample.attrs9)).map fun s => ([], s)),
      (NtfsSample.fileX, (streamNames NtfsSample.attrs11).map fun s => ([], s))], NtfsSample.directory5, by unfold DosNames; decide +kernel, by decide +kernel, ?_, rfl⟩⟩
  · decide +kernel
  · intro x hx
    simp only [List.mem_cons, List.not_mem_nil, or_false] at hx
    rcases hx with rfl | rfl | rfl
    · exact ⟨by decide +kernel, leaf NtfsSample.file7 (by unfold NotDirectory; decide +kernel)⟩
    · exact ⟨by decide +kernel, leaf NtfsSample.file8 (by unfold NotDirectory; decide +kernel)⟩
    · exact ⟨by decide +kernel, leaf NtfsSample.file11 (by unfold NotDirectory; decide +kernel)⟩

theorem sample_plain : ∀ s ∈ ([([[0x46, 0x69, 0x6c, 0x65]], none), ([[0x78]], none), ([[0x78]], some [0x73])] : List (List (List Nat) × Option (List Nat))), Plain s := by
  intro s hs
  simp only [List.mem_cons, List.not_mem_nil, or_false] at hs
  unfold Plain Spec.Utf8.isScalar
  rcases hs with rfl | rfl | rfl
  · exact ⟨by decide, fun _ h => by cases h⟩
  · exact ⟨by decide, fun _ h => by cases h⟩
  · exact ⟨by decide, fun _ h => by injection h with h; subst h; decide⟩

/-- "File" has contents, "x" contents and a stream. -/
example : IsVolume NtfsSample.U NtfsSample.V ∧ ntfsHierarchy NtfsSample.U 2 =
    ([codePoints "New Technologies File System (NTFS) hierarchy:", codePoints "/File", codePoints "/x", codePoints "/x:s"], .ok ()) := by
  refine ⟨NtfsSample.volume_U, ?_⟩
  rw [C81_ntfs_partial NtfsSample.U NtfsSample.V NtfsSample.volume_U (by rw [NtfsSample.length_U]; decide) 2 _ sample_streams sample_plain 2 (by omega)]
  decide +kernel

/-- C81 is violated: a file without data streams, here "a", is not listed, and neither is "/". -/
theorem C81_violated_stream : ∃ U V e lines, IsVolume U V ∧ Spec.NtfsFs.Path U V 5 none [[0x61]] (some (7, some e)) ∧ ntfsHierarchy U 2 = (lines, .ok ()) ∧
    ∀ line ∈ lines, line ≠ codePoints "/" ∧ ¬ codePoints "/a" <+: line := by
  refine ⟨NtfsSample.U, NtfsSample.V, NtfsSample.fileA, _, NtfsSample.volume_U, ?_,
    C81_ntfs_partial NtfsSample.U NtfsSample.V NtfsSample.volume_U (by rw [NtfsSample.length_U]; decide) 2 _ sample_streams sample_plain 2 (by omega), by decide +kernel⟩
  have hl : lookup (List.map (upperCase NtfsSample.upperTable)) NtfsSample.rootEntries [0x61] = some NtfsSample.fileA := NtfsSample.lookup_ok _ [0x41] (by decide) (by decide +kernel)
  exact .step NtfsSample.file5 NtfsSample.directory5 hl (.here NtfsSample.file7)

end Ntfs

end Keramics.Props
