import Verif.Spec.ImageTool
import Verif.Props.HashTool

/-!
# C78: the bodyfile of the image tool has the lines of every file entry
-/

namespace Keramics.ImageTool
open Spec HashTool
open Vfs (Location)
open VfsScanner (ScanPath Node)

variable {E S : Type}

theorem table_eq : table = shownChar true := by
  funext c
  simp [table, shownChar]

theorem decimal_eq (n : Nat) : VfsParts.decimal n = codePoints (toString n) := VfsScanner.decimal_eq n

theorem timestamp_text {t : Option Time} (h : t ≠ some .other) : timestamp t = .ok (timeText t) := by
  match t with
  | none => rfl
  | some .notSet => rfl
  | some (.filetime t) => rfl
  | some (.posix32 t) => rfl
  | some (.posix64 t f) => rfl
  | some .other => exact absurd rfl h

theorem and_pow (m i : Nat) : m &&& 2 ^ i ≠ 0 ↔ m.testBit i = true := by
  constructor
  · intro h
    obtain ⟨j, hj⟩ := Nat.exists_testBit_of_ne_zero h
    rw [Nat.testBit_and, Nat.testBit_two_pow] at hj
    simp only [Bool.and_eq_true, decide_eq_true_eq] at hj
    rw [hj.2]
    exact hj.1
  · intro h e
    have := Nat.testBit_and m (2 ^ i) i
    rw [e, h, Nat.testBit_two_pow_self] at this
    simp at this

theorem bit_eq (mode i letter : Nat) : bit mode (2 ^ i) letter = if mode.testBit i then letter else 0x2d := by
  have := and_pow mode i
  unfold bit
  by_cases h : mode.testBit i = true
  · rw [if_pos (this.2 h), if_pos h]
  · rw [if_neg (fun x => h (this.1 x)), if_neg h]

theorem type_eq {mode : Nat} (h : mode < 2 ^ 16) : modeType mode = typeLetter mode := by
  have e : mode &&& 0xf000 = mode / 4096 * 4096 := by
    apply Nat.eq_of_testBit_eq
    intro i
    rw [Nat.testBit_and, show (0xf000 : Nat) = 15 * 2 ^ 12 by rfl, show 4096 = 2 ^ 12 by rfl, Nat.testBit_mul_two_pow, Nat.testBit_mul_two_pow,
      Nat.testBit_div_two_pow]
    by_cases hi : 12 ≤ i
    · rw [show i - 12 + 12 = i by omega]
      by_cases h2 : i < 16
      · have : Nat.testBit 15 (i - 12) = true := by
          have : ∀ k, k < 4 → Nat.testBit 15 k = true := by decide
          exact this _ (by omega)
        simp [this, hi]
      · have : mode.testBit i = false := Nat.testBit_lt_two_pow (Nat.lt_of_lt_of_le h (Nat.pow_le_pow_right (by omega) (by omega)))
        simp [this]
    · simp [hi]
  unfold modeType typeLetter
  rw [e]
  have : mode / 4096 < 16 := by omega
  generalize mode / 4096 = k at this
  revert k
  decide

theorem modeString_eq {mode : Nat} (h : mode < 2 ^ 16) : modeString mode = modeText mode := by
  have e : modeString mode = [modeType mode, bit mode (2 ^ 8) 0x72, bit mode (2 ^ 7) 0x77, bit mode (2 ^ 6) 0x78, bit mode (2 ^ 5) 0x72,
    bit mode (2 ^ 4) 0x77, bit mode (2 ^ 3) 0x78, bit mode (2 ^ 2) 0x72, bit mode (2 ^ 1) 0x77, bit mode (2 ^ 0) 0x78] := rfl
  rw [e]
  simp only [bit_eq, type_eq h]
  rfl

theorem writable_eq (flags : Nat) : writable flags = if (flags.testBit 0 || flags.testBit 2) = true then 0x2d else 0x77 := by
  have h0 : flags &&& 1 ≠ 0 ↔ flags.testBit 0 = true := and_pow flags 0
  have h2 : flags &&& 4 ≠ 0 ↔ flags.testBit 2 = true := and_pow flags 2
  unfold writable
  simp only [h0, h2, Bool.or_eq_true]

theorem flags_eq {type : FileType} (h : type = .file ∨ type = .directory ∨ type = .symbolicLink) (flags : Nat) :
    modeStringOfFlags type flags = modeOfFlags (fileTypeLetter type) (flags.testBit 0 || flags.testBit 2) := by
  unfold modeStringOfFlags
  rw [writable_eq]
  cases (flags.testBit 0 || flags.testBit 2) <;> rcases h with rfl | rfl | rfl <;> rfl

theorem mode_eq {type : FileType} {kind : Kind}
    (h1 : (∀ i m o g, kind ≠ .ext i m o g) → kind ≠ .other → type = .file ∨ type = .directory ∨ type = .symbolicLink)
    (h2 : ∀ inode mode owner group, kind = .ext inode mode owner group → mode < 2 ^ 16) : mode type kind = entryMode type kind := by
  cases kind with
  | ext i m o g => exact modeString_eq (h2 i m o g rfl)
  | fat i f => exact flags_eq (h1 (by simp) (by simp)) f
  | ntfs r f => exact flags_eq (h1 (by simp) (by simp)) f
  | other => cases type <;> rfl

theorem identifier_eq (kind : Kind) : identifier kind = entryIdentifier kind := by
  cases kind with
  | ext i m o g => exact decimal_eq i
  | fat i f => rfl
  | ntfs r f =>
    simp only [identifier, entryIdentifier]
    rw [decimal_eq, decimal_eq, show (0xffffffffffff : Nat) = 2 ^ 48 - 1 from rfl, Nat.and_two_pow_sub_one_eq_mod, Nat.shiftRight_eq_div_pow]
  | other => rfl

theorem owner_eq (kind : Kind) : owner kind = entryOwner kind := by
  cases kind <;> first | rfl | exact decimal_eq _

theorem group_eq (kind : Kind) : group kind = entryGroup kind := by
  cases kind <;> first | rfl | exact decimal_eq _

/-- The text of the MD5. -/
noncomputable def md5Of (contents : List Byte) : List Nat := digestText .md5 contents

/-- How the MD5 is shown, if it is to be calculated. -/
noncomputable def digestOf (c : Config E S) : Option (List Byte → List Nat) := if c.md5 then some md5Of else none

theorem streamMd5_eq (c : Config E S) (fuel : Nat) (hf : 2 ^ 61 ≤ fuel) (s : S) (name : Option Name) (contents : List Byte)
    (h : c.md5 = true → IsStream c.read ⟨name, .ok s⟩ ⟨name, some contents⟩) : streamMd5 c fuel s = .ok (md5Text (digestOf c) (some contents)) := by
  unfold streamMd5 digestOf
  by_cases hc : c.md5 = true
  · obtain ⟨-, hl, s', position, hs, h0, hr⟩ := h hc
    cases hs
    have := Props.C10_hasher .md5 contents hl c.read position hr s h0 fuel (by omega)
    simp only [hc, if_true, this, R.ok_bind, md5Text, md5Of]
    rfl
  · simp [hc, md5Text]

theorem row_eq {c : Config E S} {v : Volume E S} {e : E} {f : EntryFacts} (h : Describes c v e f) (md5 path : List Nat) (size : Nat)
    (a m ch cr : Option Time) : row (v.info e).kind (v.info e).type md5 path size (timeText a) (timeText m) (timeText ch) (timeText cr)
      = (f.row md5 path size a m ch cr).line := by
  unfold row
  rw [h.kind, h.type, mode_eq h.flagsType h.mode, identifier_eq, owner_eq, group_eq, decimal_eq]
  simp [EntryFacts.row, BodyRow.line, BodyRow.fields, List.intercalate]

/-- The parts of the lines of a file entry. -/
noncomputable def factsParts (c : Config E S) (f : EntryFacts) (names : List Name) : Parts :=
  ⟨md5Text (digestOf c) f.contents, shownPath true names, linkText f.target, timeText f.access, timeText f.modification, timeText f.change, timeText f.creation⟩

theorem parts_eq (c : Config E S) (fuel : Nat) (hf : 2 ^ 61 ≤ fuel) (v : Volume E S) (e : E) (f : EntryFacts) (h : Describes c v e f) (names : List Name)
    (hn : ∀ n ∈ names, CanShow n) : parts c fuel (v.info e) (none :: names.map some) = .ok (factsParts c f names) := by
  obtain ⟨t1, t2, t3, t4⟩ := h.times
  obtain ⟨s1, s2, s3, s4⟩ := h.supported
  have hmd5 : entryMd5 c fuel (v.info e).stream = .ok (md5Text (digestOf c) f.contents) := by
    unfold entryMd5
    by_cases hc : c.md5 = true
    · have := h.contents hc
      rw [if_pos hc]
      cases hx : f.contents with
      | none =>
        simp only [hx] at this
        rw [this]
        simp [digestOf, hc, md5Text, codePoints]
      | some contents =>
        simp only [hx] at this
        obtain ⟨s, hs, h1⟩ := this
        rw [hs]
        simp only [R.ok_bind]
        exact streamMd5_eq c fuel hf s none contents fun _ => h1
    · simp [hc, digestOf, md5Text]
  have hlink : linkSuffix (v.info e).target = .ok (linkText f.target) := by
    have := h.target
    unfold linkSuffix
    cases hx : f.target with
    | none =>
      simp only [hx] at this
      rw [this]
      rfl
    | some text =>
      simp only [hx] at this
      obtain ⟨path, h1, h2⟩ := this
      rw [h1]
      simp only [R.ok_bind, h2]
      rfl
  unfold parts
  rw [hmd5, R.ok_bind, table_eq, joinNames_shown true hn, R.ok_bind, hlink, R.ok_bind, t1, t2, t3, t4, timestamp_text s1, R.ok_bind, timestamp_text s2,
    R.ok_bind, timestamp_text s3, R.ok_bind, timestamp_text s4]
  rfl

/-- The lines of file entries, one after the other. -/
def lines (rows : List BodyRow) : Out := (rows.map BodyRow.line, .ok ())

theorem lines_append (a b : List BodyRow) : (lines a).andThen (lines b) = lines (a ++ b) := by
  simp [lines, Out.andThen]

theorem pathPrefix_eq {above : List Nat} (h : above.getLast? ≠ some 0x2f) : pathPrefix above = above := by simp [pathPrefix, h]

theorem forkRow_eq (c : Config E S) (fuel : Nat) (hf : 2 ^ 61 ≤ fuel) (v : Volume E S) (above : List Nat) (ha : above.getLast? ≠ some 0x2f) (e : E)
    (f : EntryFacts) (h : Describes c v e f) (names : List Name) (i : Nat) (hi : i < f.streams.length) :
    printedSome (forkRow c fuel v above (factsParts c f names) e i)
      = lines ((f.streams[i].1.map fun n => f.stream (digestOf c) above names n f.streams[i].2).toList) := by
  obtain ⟨x, hx, hname, hs⟩ := h.forks i hi
  unfold forkRow
  rw [hx, R.ok_bind, ← hname]
  cases hn : x.name with
  | none => rfl
  | some n =>
    obtain ⟨h1, s, h2, h3, h4⟩ := hs n hn
    simp only [table_eq, escape_shown true h1, R.ok_bind, h2, h3]
    have hx' : x = ⟨some n, .ok s⟩ := by
      cases x
      simp_all
    rw [streamMd5_eq c fuel hf s (some n) f.streams[i].2 (fun hc => hx' ▸ h4 hc), R.ok_bind]
    simp only [factsParts, row_eq h, pathPrefix_eq ha, R.pure_eq, printedSome, lines, Option.map_some, Option.toList_some, List.map_cons, List.map_nil,
      EntryFacts.stream, shownStream]
    have : codePoints ":" = [0x3a] := rfl
    simp [this]

theorem forkRows_eq (c : Config E S) (fuel : Nat) (hf : 2 ^ 61 ≤ fuel) (v : Volume E S) (above : List Nat) (ha : above.getLast? ≠ some 0x2f) (e : E)
    (f : EntryFacts) (h : Describes c v e f) (names : List Name) (n i : Nat) (hi : i + n = f.streams.length) :
    forkRows c fuel v above (factsParts c f names) e n i
      = lines ((f.streams.drop i).filterMap fun (name, contents) => name.map fun n => f.stream (digestOf c) above names n contents) := by
  induction n generalizing i with
  | zero =>
    rw [List.drop_eq_nil_of_le (by omega)]
    rfl
  | succ n ih =>
    rw [forkRows, ih (i + 1) (by omega), forkRow_eq c fuel hf v above ha e f h names i (by omega), lines_append,
      List.drop_eq_getElem_cons (show i < f.streams.length by omega), List.filterMap_cons]
    generalize f.streams[i] = x
    obtain ⟨name, contents⟩ := x
    cases name <;> rfl

theorem attribute_eq {c : Config E S} {v : Volume E S} {e : E} {f : EntryFacts} (h : Describes c v e f) (above : List Nat)
    (ha : above.getLast? ≠ some 0x2f) (names : List Name) (hname : v.name e = names.getLast?) (r fl : Nat) (hk : f.kind = .ntfs r fl) (parent : Nat)
    (hp : f.parent = some parent) (x : FileName)
    (ht : x.access ≠ .other ∧ x.modification ≠ .other ∧ x.entryModification ≠ .other ∧ x.creation ≠ .other) :
    printedSome (attributeRow v above (factsParts c f names) e parent (.ok (some x)))
      = lines (([x].filter (f.isOwn names)).map (f.named (digestOf c) above names)) := by
  simp only [attributeRow, R.ok_bind, fileNameRow, hname]
  have hown : f.isOwn names x = (decide (x.parent = parent) && decide (names.getLast? = some (.ucs2 x.name)) && decide (x.nameSpace ≠ 2)) := by
    simp only [EntryFacts.isOwn, hk, hp, Bool.true_and]
    by_cases h1 : x.parent = parent
    · by_cases h2 : names.getLast? = some (.ucs2 x.name)
      · by_cases h3 : x.nameSpace = 2 <;> simp [h1, h2, h3]
      · simp [h1, h2]
    · have : ¬ parent = x.parent := fun h => h1 h.symm
      simp [h1, this]
  by_cases h1 : x.parent = parent
  · by_cases h2 : names.getLast? = some (.ucs2 x.name)
    · by_cases h3 : x.nameSpace = 2
      · simp [h1, h2, h3, hown, printedSome, lines]
      · obtain ⟨t1, t2, t3, t4⟩ := ht
        rw [if_neg (by simp [h1, h2]), if_neg h3, timestamp_text (by simpa using t1), R.ok_bind, timestamp_text (by simpa using t2), R.ok_bind,
          timestamp_text (by simpa using t3), R.ok_bind, timestamp_text (by simpa using t4), R.ok_bind]
        simp only [factsParts, row_eq h, pathPrefix_eq ha, R.pure_eq, printedSome, h.size]
        have : f.isOwn names x = true := by rw [hown]; simp [h1, h2, h3]
        simp [lines, this, EntryFacts.named]
    · rw [if_pos (by right; intro h; exact h2 h.symm)]
      simp [h2, hown, printedSome, lines]
  · rw [if_pos (.inl h1)]
    simp [h1, hown, printedSome, lines]

theorem fileNameRows_eq {c : Config E S} {v : Volume E S} {e : E} {f : EntryFacts} (h : Describes c v e f) (above : List Nat)
    (ha : above.getLast? ≠ some 0x2f) (names : List Name) (hname : v.name e = names.getLast?) :
    fileNameRows v above (factsParts c f names) e = lines ((f.fileNames.filter (f.isOwn names)).map (f.named (digestOf c) above names)) := by
  have hnone : (∀ r fl p, ¬ (f.kind = .ntfs r fl ∧ f.parent = some p)) → f.fileNames.filter (f.isOwn names) = [] := by
    intro hno
    rw [List.filter_eq_nil_iff]
    intro x _ hx
    simp only [EntryFacts.isOwn, Bool.and_eq_true] at hx
    obtain ⟨⟨⟨h1, h2⟩, -⟩, -⟩ := hx
    cases hk : f.kind with
    | ntfs r fl => exact hno r fl x.parent ⟨hk, by simpa using h2⟩
    | ext => simp [hk] at h1
    | fat => simp [hk] at h1
    | other => simp [hk] at h1
  unfold fileNameRows
  rw [h.kind, h.parent]
  obtain ⟨as, h1, h2⟩ := h.fileNames
  rw [h1]
  have hloop : ∀ (r fl parent : Nat), f.kind = .ntfs r fl → f.parent = some parent → ∀ as : List (Option FileName), (∀ x ∈ as.filterMap id, x ∈ f.fileNames) →
      attributeRows v above (factsParts c f names) e parent (as.map R.ok)
        = lines (((as.filterMap id).filter (f.isOwn names)).map (f.named (digestOf c) above names)) := by
    intro r fl parent hk hp as
    induction as with
    | nil => intro _; rfl
    | cons a as ih =>
      intro hsub
      rw [List.map_cons, attributeRows, ih fun x hx => hsub x (by
        cases a with
        | none => exact hx
        | some y => exact List.mem_cons_of_mem _ hx)]
      cases a with
      | none => rfl
      | some x =>
        rw [attribute_eq h above ha names hname r fl hk parent hp x (h.fileTimes x (hsub x List.mem_cons_self)), lines_append, ← List.map_append,
          ← List.filter_append]
        rfl
  cases hk : f.kind with
  | ntfs r fl =>
    cases hp : f.parent with
    | none =>
      rw [hnone (by simp [hp])]
      rfl
    | some parent =>
      simp only
      rw [hloop r fl parent hk hp as (fun x hx => h2 ▸ hx), h2]
  | ext =>
    rw [hnone (by simp [hk])]
    rfl
  | fat =>
    rw [hnone (by simp [hk])]
    rfl
  | other =>
    rw [hnone (by simp [hk])]
    rfl

mutual
/-- The last of the path of what is found is its name. -/
theorem tree_last (fs : Files E Name) (t : Spec.Tree E) (path : List (Option Name)) (e : E) (p : List (Option Name))
    (hm : Found.entry e p ∈ t.found fs path) : p.getLast? = some (fs.name e) := by
  match t with
  | .node a subs =>
    simp only [Spec.Tree.found, List.mem_append, List.mem_singleton, Found.entry.injEq] at hm
    rcases hm with hm | ⟨rfl, rfl⟩
    · exact forest_last fs subs _ e p hm
    · simp
theorem forest_last (fs : Files E Name) (s : Forest E) (path : List (Option Name)) (e : E) (p : List (Option Name))
    (hm : Found.entry e p ∈ s.found fs path) : p.getLast? = some (fs.name e) := by
  match s with
  | .nil => simp [Forest.found] at hm
  | .opened t more =>
    simp only [Forest.found, List.mem_append] at hm
    rcases hm with hm | hm
    · exact tree_last fs t path e p hm
    · exact forest_last fs more path e p hm
  | .lost more =>
    simp only [Forest.found, List.mem_cons, reduceCtorEq, false_or] at hm
    exact forest_last fs more path e p hm
end

/-- What is printed for a file entry. -/
theorem entryRows_eq (c : Config E S) (fuel : Nat) (hf : 2 ^ 61 ≤ fuel) {location : Location ScanPath} {v : Volume E S} {root : E} {tree : Spec.Tree E}
    {facts : E → EntryFacts} (h : HoldsEntries c location v root tree facts) (above : List Nat) (ha : above.getLast? ≠ some 0x2f) (e : E)
    (path : List (Option Name)) (hm : Found.entry e path ∈ tree.found v.toFiles []) :
    entryRows c fuel v above e path = lines ((facts e).rows (digestOf c) above (namesOf path)) := by
  have hd := h.entries e path hm
  obtain ⟨q, hq⟩ := tree_paths v.toFiles tree root h.below [] e path hm
  rw [h.rootName, List.nil_append] at hq
  have hn := h.names e path hm
  rw [hq, List.tail_cons] at hn
  obtain ⟨h1, h2⟩ := path_names hn
  have hnames : namesOf path = q.filterMap id := by rw [hq]; rfl
  have hlast := tree_last v.toFiles tree [] e path hm
  rw [hnames]
  have hname : v.name e = (q.filterMap id).getLast? := by
    rw [hq, h1] at hlast
    generalize q.filterMap id = names at hlast
    rw [List.getLast?_cons, List.getLast?_map] at hlast
    cases hg : names.getLast? with
    | none => simpa [hg] using hlast.symm
    | some n => simpa [hg] using hlast.symm
  unfold entryRows
  rw [hq, h1, parts_eq c fuel hf v e _ hd _ h2, hd.number]
  simp only [after]
  rw [forkRows_eq c fuel hf v above ha e _ hd _ _ 0 (Nat.zero_add _), fileNameRows_eq hd above ha _ hname, lines_append]
  simp only [factsParts, row_eq hd, pathPrefix_eq ha, hd.size]
  show (lines [(facts e).first (digestOf c) above (q.filterMap id)]).andThen _ = _
  rw [lines_append]
  simp [EntryFacts.rows]

theorem concat_rows {α : Type} (f : α → Option (List BodyRow)) (l : List α) :
    concat (l.map fun x => showRows [f x]) = showRows (l.map f) := by
  induction l with
  | nil => rfl
  | cons x l ih =>
    rw [List.map_cons, concat_cons, ih, List.map_cons]
    cases f x with
    | none => rfl
    | some rows => simp [showRows, Out.andThen]

theorem showRows_append (a b : List (Option (List BodyRow))) : showRows (a ++ b) = Out.andThen (showRows a) (showRows b) := by
  induction a with
  | nil => rfl
  | cons x a ih =>
    cases x with
    | none => rfl
    | some rows =>
      simp only [List.cons_append, showRows, ih, Out.andThen]
      cases h : (showRows a).2 <;> simp [h]

theorem concat_showRows {α : Type} (f : α → List (Option (List BodyRow))) (l : List α) : concat (l.map fun x => showRows (f x)) = showRows (l.flatMap f) := by
  induction l with
  | nil => rfl
  | cons x l ih => rw [List.map_cons, concat_cons, ih, List.flatMap_cons, showRows_append]

/-- What is printed for a volume. -/
theorem leafLines_rows (c : Config E S) {location : Location ScanPath} {v : Volume E S} {root : E} {tree : Spec.Tree E}
    {facts : E → EntryFacts} (h : HoldsEntries c location v root tree facts) (above : List Nat) (hl : above.getLast? ≠ some 0x2f)
    (hfs : isFileSystem location.type = true) (ha : abovePath location = .ok above) : ∃ enough, ∀ fuel, enough ≤ fuel →
      leafLines (walk c) fuel location = showRows ((tree.found v.toFiles []).map (foundRows (digestOf c) above facts)) := by
  rw [← concat_rows]
  exact leafLines_concat (walk c) location v root tree above hfs ha h.opens h.hasRoot h.below _ rfl (2 ^ 61) fun fuel hf e p hm => by
    show entryRows c fuel v above e p = _
    rw [entryRows_eq c fuel hf h above hl e p hm]
    simp [foundRows, showRows, lines]

theorem above_last (i : Nat) : (codePoints "/p" ++ codePoints (toString i)).getLast? ≠ some 0x2f := by
  intro h
  have hd := digits_of i
  rcases List.eq_nil_or_concat (codePoints (toString i)) with h0 | ⟨l, x, h0⟩
  · rw [h0] at h
    exact absurd h (by decide)
  · rw [h0, List.concat_eq_append, ← List.append_assoc, List.getLast?_concat, Option.some.injEq] at h
    have := hd x (by rw [h0]; simp)
    omega

theorem volume_above (f : Spec.Volume) (above : List Nat) (location : Location ScanPath) : ∀ x ∈ f.listed above location, x.1 = above := by
  intro x hx
  cases f <;> simp [Spec.Volume.listed] at hx <;> simp [hx]

theorem disk_above (d : Disk) (location : Location ScanPath) : ∀ x ∈ d.listed location, x.1 = [] ∨ ∃ i : Nat, x.1 = codePoints "/p" ++ codePoints (toString i) := by
  intro x hx
  cases d with
  | files f => exact .inl (volume_above f [] location x hx)
  | partitions k ps =>
    simp only [Disk.listed, List.mem_flatten, List.mem_mapIdx] at hx
    obtain ⟨l, ⟨i, hi, rfl⟩, hx⟩ := hx
    exact .inr ⟨i + 1, volume_above _ _ (partLocation k (i + 1) location) x hx⟩

theorem content_above (content : Content) (location : Location ScanPath) : ∀ x ∈ content.listed location,
    x.1 = [] ∨ ∃ i : Nat, x.1 = codePoints "/p" ++ codePoints (toString i) := by
  cases content with
  | raw d => exact disk_above d location
  | image k n d => exact disk_above d _

end Keramics.ImageTool

namespace Keramics.Props
open Spec HashTool
open Vfs (Location)
open VfsScanner (ScanPath)

variable {E S D : Type}

/-- C78: the image tool, run on a file that the scanner can scan, prints a bodyfile: a header, and then the lines of every file entry of
every volume in the file, each once: that of the file entry, those of its named data streams and those of its $FILE_NAME attributes.
Missing: a file entry that cannot be opened ends the listing, as one does that cannot be read, of which a time is of another kind or of
which a name is not valid UTF-8, see `C78_violated_fat`. -/
theorem C78_rows_partial (w : VfsScanner.World D) (depth : Nat) (source : List Nat) (d : D) (content : Content)
    (hos : w.os source = .ok (some ⟨.file, .ok d⟩)) (hw : HoldsContent w source d content)
    (hk : ∀ k n x, content = .image k n x → k = .ewf ∨ k = .qcow ∨ k = .vhd ∨ k = .vhdx)
    (c : ImageTool.Config E S) (v : Location ScanPath → ImageTool.Volume E S) (root : Location ScanPath → E)
    (tree : Location ScanPath → Spec.Tree E) (facts : Location ScanPath → E → EntryFacts)
    (hv : ∀ above location, (above, location) ∈ content.listed (.base (.os source) .os) →
      HoldsEntries c location (v location) (root location) (tree location) (facts location)) :
    ∃ node, VfsScanner.scan w (depth + 4) (.base (.os source) .os) = .ok node ∧
      ∃ enough, ∀ fuel, enough ≤ fuel → ImageTool.bodyfile c fuel node =
        let rows := showRows ((content.listed (.base (.os source) .os)).flatMap fun (above, location) =>
          ((tree location).found (v location).toFiles []).map (foundRows
            (if c.md5 then some fun contents => (Hasher.formatAsString (specDigest .md5 contents)).map Char.toNat else none) above (facts location)))
        (codePoints "# extended bodyfile 3 format" :: rows.1, rows.2) := by
  refine ⟨_, C69_scan_partial w depth source d content hos hw hk, ?_⟩
  obtain ⟨n, hn⟩ := content_lines (w := ImageTool.walk c) (out := fun x => showRows (((tree x.2).found (v x.2).toFiles []).map
      (foundRows (ImageTool.digestOf c) x.1 (facts x.2)))) w source d content hw hk fun x hx hfs ha => by
    refine ImageTool.leafLines_rows c (hv x.1 x.2 hx) x.1 ?_ hfs ha
    rcases ImageTool.content_above content _ x hx with h | ⟨i, h⟩
    · simp [h]
    · rw [h]
      exact ImageTool.above_last i
  refine ⟨n, fun fuel hf => ?_⟩
  rw [ImageTool.bodyfile, hn fuel hf, ImageTool.concat_showRows]
  rfl

/-! ## The lines can be read -/

/-- A text that leaves a field as it is. -/
def Closed (l : List Nat) : Prop := ∀ field rest, splitFrom field (l ++ rest) = splitFrom (field ++ l) rest

theorem closed_nil : Closed [] := fun field rest => by simp

theorem closed_append {a b : List Nat} (ha : Closed a) (hb : Closed b) : Closed (a ++ b) := fun field rest => by
  rw [List.append_assoc, ha, hb, List.append_assoc]

theorem closed_char {c : Nat} (h1 : c ≠ 0x5c) (h2 : c ≠ 0x7c) : Closed [c] := fun field rest => by
  cases rest with
  | nil => simp [splitFrom, h2]
  | cons d rest => simp [splitFrom, h1, h2]

theorem closed_pair (d : Nat) : Closed [0x5c, d] := fun field rest => by
  rw [List.cons_append, List.cons_append, splitFrom]
  simp

theorem closed_plain {l : List Nat} (h : ∀ c ∈ l, c ≠ 0x5c ∧ c ≠ 0x7c) : Closed l := by
  induction l with
  | nil => exact closed_nil
  | cons c l ih =>
    rw [← List.singleton_append]
    exact closed_append (closed_char (h c (by simp)).1 (h c (by simp)).2) (ih fun x hx => h x (List.mem_cons_of_mem _ hx))

theorem closed_flatMap (f : Nat → List Nat) (s : List Nat) (h : ∀ c ∈ s, Closed (f c)) : Closed (s.flatMap f) := by
  induction s with
  | nil => exact closed_nil
  | cons c s ih =>
    rw [List.flatMap_cons]
    exact closed_append (h c (by simp)) (ih fun x hx => h x (List.mem_cons_of_mem _ hx))

theorem closed_hex {w v : Nat} (hw : 0 < w) (hv : v < 16 ^ w) : Closed (Display.hex w v) :=
  closed_plain fun c hc => by have := hex_alnum hw hv c hc; omega

theorem closed_shownChar (c : Nat) : Closed (shownChar true c) := by
  have hp : ∀ x ∈ Display.nonPrintableCharacters, x < 2 ^ 32 := by decide
  have hu : ∀ x ∈ Display.undefinedCharacters, x < 2 ^ 32 := by decide
  unfold shownChar
  split
  · exact closed_pair _
  rename_i hbar
  unfold Display.character Display.translate
  split
  · rename_i h; exact closed_append (closed_pair _) (closed_hex (by decide) (hp c h))
  split
  · rename_i h; exact closed_append (closed_pair _) (closed_hex (by decide) (hu c h))
  split
  · rename_i h; exact closed_append (closed_pair _) (closed_hex (by decide) (by omega))
  split
  · exact closed_pair _
  split
  · exact closed_pair _
  split
  · exact closed_pair _
  split
  · rename_i h; exact closed_append (closed_pair _) (closed_hex (by decide) (by omega))
  · rename_i h _ _ _
    exact closed_char h (by simpa using hbar)

theorem closed_shown {n : Name} (h : CanShow n) : Closed (shownName true n) := by
  have hu : ∀ c, c < 2 ^ 32 → Closed ([0x5c, 0x55] ++ Display.hex 8 c) :=
    fun c hc => closed_append (closed_pair _) (closed_hex (by decide) (by omega))
  cases n with
  | byte s =>
    obtain ⟨cs, h1, h2⟩ := h
    have hc : nameChars (.byte s) = cs := by simp only [nameChars, h2, C18_decode_encode cs h1]
    simp only [shownName, hc]
    refine closed_flatMap _ _ fun c hm => ?_
    split
    · exact closed_shownChar c
    · have := h1 c hm
      unfold Utf8.isScalar at this
      exact closed_append (closed_append (a := [0x5c, 0x55] ++ [0x7b]) (closed_append (closed_pair _) (closed_char (by decide) (by decide)))
        (closed_hex (by decide) (by omega))) (closed_char (by decide) (by decide))
  | os => exact h.elim
  | text s => exact closed_flatMap _ _ fun c _ => closed_shownChar c
  | ucs2 s =>
    simp only [shownName]
    refine closed_flatMap _ _ fun c hm => ?_
    split
    · exact closed_shownChar c
    · exact hu c (by have := h c hm; omega)

theorem closed_path {names : List Name} (h : ∀ n ∈ names, CanShow n) : Closed (shownPath true names) := by
  unfold shownPath
  split
  · exact closed_char (by decide) (by decide)
  · clear * - h
    induction names with
    | nil => exact closed_nil
    | cons n names ih =>
      rw [List.flatMap_cons, ← List.singleton_append (x := 0x2f)]
      exact closed_append (closed_append (closed_char (by decide) (by decide)) (closed_shown (h n (by simp))))
        (ih fun m hm => h m (List.mem_cons_of_mem _ hm))

theorem split_fields (x : List Nat) (xs : List (List Nat)) (h : ∀ y ∈ x :: xs, Closed y) : splitFields (List.intercalate [0x7c] (x :: xs)) = x :: xs := by
  have key : ∀ field, splitFrom field (List.intercalate [0x7c] (x :: xs)) = (field ++ x) :: xs := by
    induction xs generalizing x with
    | nil =>
      intro field
      have := h x (by simp) field []
      simpa [List.intercalate, splitFrom] using this
    | cons y ys ih =>
      intro field
      have e : List.intercalate [0x7c] (x :: y :: ys) = x ++ 0x7c :: List.intercalate [0x7c] (y :: ys) := by simp [List.intercalate]
      have hbar : ∀ (field rest : List Nat), splitFrom field (0x7c :: rest) = field :: splitFrom [] rest := by
        intro field rest
        cases rest <;> simp [splitFrom]
      rw [e, h x (by simp), hbar, ih y (fun z hz => h z (List.mem_cons_of_mem _ hz))]
      simp
  unfold splitFields
  simpa using key []

/-- A text of printable ASCII characters without backslashes and vertical bars. -/
def Plain (l : List Nat) : Prop := ∀ c ∈ l, 0x20 ≤ c ∧ c < 0x7f ∧ c ≠ 0x5c ∧ c ≠ 0x7c

theorem Plain.closed {l : List Nat} (h : Plain l) : Closed l := closed_plain fun c hc => ⟨(h c hc).2.2.1, (h c hc).2.2.2⟩

theorem Plain.append {a b : List Nat} (ha : Plain a) (hb : Plain b) : Plain (a ++ b) := fun c hc => by
  rcases List.mem_append.1 hc with h | h
  · exact ha c h
  · exact hb c h

theorem plain_number (n : Nat) : Plain (codePoints (toString n)) := fun c hc => by have := digits_of n c hc; omega

theorem plain_digits (w v : Nat) : Plain ((Calendar.digits w v).map Char.toNat) := by
  intro c hc
  obtain ⟨x, hx, rfl⟩ := List.mem_map.1 hc
  have := List.all_eq_true.1 (digits_all w v).1 x hx
  simp only [Char.isDigit, Bool.and_eq_true, decide_eq_true_eq] at this
  have h1 : 48 ≤ x.toNat := this.1
  have h2 : x.toNat ≤ 57 := this.2
  omega

theorem plain_formatDec (w v : Nat) : Plain ((DateTime.formatDec w v).map Char.toNat) := by
  unfold DateTime.formatDec
  rw [DateTime.decDigits_eq]
  exact plain_digits _ _

theorem plain_formatInt (v : Int) : Plain ((DateTime.formatInt 0 v).map Char.toNat) := by
  unfold DateTime.formatInt
  split
  · rw [List.map_cons, ← List.singleton_append]
    exact Plain.append (by unfold Plain; decide) (plain_formatDec _ _)
  · exact plain_formatDec _ _

theorem plain_time (t : Option ImageTool.Time) : Plain (timeText t) := by
  have hdot : Plain (['.'].map Char.toNat) := by unfold Plain; decide
  match t with
  | none => simp [timeText, Plain]
  | some .notSet => simp [timeText, Plain]
  | some .other => simp [timeText, Plain]
  | some (.filetime t) =>
    simp only [timeText, Bodyfile.filetime]
    rw [List.map_append, List.map_append]
    exact ((plain_formatInt _).append hdot).append (plain_formatDec _ _)
  | some (.posix32 t) => exact plain_formatInt t
  | some (.posix64 t f) =>
    simp only [timeText, Bodyfile.posix64]
    rw [List.map_append, List.map_append]
    exact ((plain_formatInt _).append hdot).append (plain_formatDec _ _)

theorem plain_mode (type : ImageTool.FileType) (kind : ImageTool.Kind) : Plain (entryMode type kind) := by
  have hflags : ∀ b, Plain (modeOfFlags (fileTypeLetter type) b) := by
    intro b
    cases type <;> cases b <;> unfold Plain <;> decide
  cases kind with
  | ext i m o g =>
    simp only [entryMode, modeText]
    intro c hc
    rcases List.mem_cons.1 hc with rfl | hc
    · unfold typeLetter
      split <;> decide
    · obtain ⟨i, hi, rfl⟩ := List.mem_map.1 hc
      have hi := List.mem_range.1 hi
      split
      · have : ∀ i, i < 9 → 0x20 ≤ permissions.getD i 0 ∧ permissions.getD i 0 < 0x7f ∧ permissions.getD i 0 ≠ 0x5c ∧ permissions.getD i 0 ≠ 0x7c := by decide
        exact this i hi
      · decide
  | fat i f => exact hflags _
  | ntfs r f => exact hflags _
  | other => exact hflags _

theorem plain_hex {w v : Nat} (hw : 0 < w) (hv : v < 16 ^ w) : Plain (Display.hex w v) :=
  fun c hc => by have := hex_alnum hw hv c hc; omega

theorem plain_identifier {kind : ImageTool.Kind} (h : ∀ i f, kind = .fat i f → i < 2 ^ 32) : Plain (entryIdentifier kind) := by
  cases kind with
  | ext i m o g => exact plain_number i
  | fat i f =>
    have := h i f rfl
    exact Plain.append (by unfold Plain; decide) (plain_hex (by decide) (by omega))
  | ntfs r f => exact ((plain_number _).append (by unfold Plain; decide)).append (plain_number _)
  | other => simp [entryIdentifier, Plain]

theorem plain_owner (kind : ImageTool.Kind) : Plain (entryOwner kind) ∧ Plain (entryGroup kind) := by
  cases kind with
  | ext i m o g => exact ⟨plain_number o, plain_number g⟩
  | _ => simp [entryOwner, entryGroup, Plain]

theorem plain_md5 (md5 : Bool) (contents : Option (List Byte)) :
    Plain (md5Text (if md5 then some fun contents => (Hasher.formatAsString (specDigest .md5 contents)).map Char.toNat else none) contents) := by
  cases md5 with
  | false =>
    simp only [md5Text, Bool.false_eq_true, if_false]
    unfold Plain
    decide
  | true =>
    cases contents with
    | none =>
      intro c hc
      simp only [md5Text, if_true] at hc
      have := List.eq_of_mem_replicate hc
      omega
    | some contents =>
      intro c hc
      simp only [md5Text, if_true] at hc
      obtain ⟨x, hx, rfl⟩ := List.mem_map.1 hc
      obtain ⟨b, -, hb⟩ := List.mem_flatMap.1 hx
      have hd : ∀ d, d < 16 → 0x20 ≤ (Hasher.hexDigit d).toNat ∧ (Hasher.hexDigit d).toNat < 0x7f ∧ (Hasher.hexDigit d).toNat ≠ 0x5c ∧
        (Hasher.hexDigit d).toNat ≠ 0x7c := by decide
      have := b.isLt
      simp only [List.mem_cons, List.not_mem_nil, or_false] at hb
      rcases hb with rfl | rfl
      · exact hd _ (by omega)
      · exact hd _ (by omega)

theorem mem_intercalate {sep c : Nat} {l : List (List Nat)} (h : c ∈ List.intercalate [sep] l) : c = sep ∨ ∃ x ∈ l, c ∈ x := by
  induction l with
  | nil => simp [List.intercalate] at h
  | cons x l ih =>
    cases l with
    | nil => exact .inr ⟨x, by simp, by simpa [List.intercalate] using h⟩
    | cons y l =>
      have e : List.intercalate [sep] (x :: y :: l) = x ++ sep :: List.intercalate [sep] (y :: l) := by simp [List.intercalate]
      rw [e, List.mem_append, List.mem_cons] at h
      rcases h with h | h | h
      · exact .inr ⟨x, by simp, h⟩
      · exact .inl h
      · rcases ih h with h | ⟨z, hz, h⟩
        · exact .inl h
        · exact .inr ⟨z, List.mem_cons_of_mem _ hz, h⟩

/-- A text with which a line stays one line of eleven fields. -/
def Tidy (l : List Nat) : Prop := Closed l ∧ ∀ c ∈ l, ¬ isControl c

theorem Plain.tidy {l : List Nat} (h : Plain l) : Tidy l := ⟨h.closed, fun c hc => by have := h c hc; unfold isControl; omega⟩

theorem Tidy.append {a b : List Nat} (ha : Tidy a) (hb : Tidy b) : Tidy (a ++ b) := ⟨closed_append ha.1 hb.1, fun c hc => by
  rcases List.mem_append.1 hc with h | h
  · exact ha.2 c h
  · exact hb.2 c h⟩

theorem tidy_stream (i : Nat) (above : List Nat) (ha : above = [] ∨ above = codePoints "/p" ++ codePoints (toString i)) (names : List Name)
    (x : Option Name) (hn : ∀ n ∈ names, CanShow n) (hx : ∀ n, x = some n → CanShow n) : Tidy (above ++ shownStream true names x) := by
  refine ⟨closed_append ?_ ?_, C76_one_line true i above ha names x hn hx⟩
  · rcases ha with rfl | rfl
    · exact closed_nil
    · exact Plain.closed (Plain.append (by unfold Plain; decide) (plain_number i))
  · rw [shownStream_eq]
    refine closed_append (closed_path hn) ?_
    cases x with
    | none => exact closed_nil
    | some n =>
      rw [suffix, ← List.singleton_append]
      exact closed_append (closed_char (by decide) (by decide)) (closed_shown (hx n rfl))

theorem tidy_row (md5 : Bool) (contents : Option (List Byte)) (f : EntryFacts) (hfat : ∀ i g, f.kind = .fat i g → i < 2 ^ 32) (path : List Nat)
    (hp : Tidy path) (size : Nat) (a m ch cr : Option ImageTool.Time) (r : BodyRow)
    (hr : r = f.row (md5Text (if md5 then some fun contents => (Hasher.formatAsString (specDigest .md5 contents)).map Char.toNat else none) contents)
      path size a m ch cr) : splitFields r.line = r.fields ∧ ∀ c ∈ r.line, ¬ isControl c := by
  have hall : ∀ x ∈ r.fields, Tidy x := by
    subst hr
    intro x hx
    simp only [EntryFacts.row, BodyRow.fields, List.mem_cons, List.not_mem_nil, or_false] at hx
    rcases hx with rfl | rfl | rfl | rfl | rfl | rfl | rfl | rfl | rfl | rfl | rfl
    · exact (plain_md5 md5 contents).tidy
    · exact hp
    · exact (plain_identifier hfat).tidy
    · exact (plain_mode _ _).tidy
    · exact (plain_owner _).1.tidy
    · exact (plain_owner _).2.tidy
    · exact (plain_number _).tidy
    · exact (plain_time _).tidy
    · exact (plain_time _).tidy
    · exact (plain_time _).tidy
    · exact (plain_time _).tidy
  constructor
  · exact split_fields _ _ fun x hx => (hall x hx).1
  · intro c hc
    rcases mem_intercalate hc with rfl | ⟨x, hx, hc⟩
    · unfold isControl
      omega
    · exact (hall x hx).2 c hc

/-- C78: a line is one line, without control characters, and read at its vertical bars it gives back its eleven fields, whatever the
names of the file entries and of the data streams are. The target of a symbolic link is to have none of the characters for that. -/
theorem C78_fields (md5 : Bool) (i : Nat) (above : List Nat) (ha : above = [] ∨ above = codePoints "/p" ++ codePoints (toString i)) (names : List Name)
    (hn : ∀ n ∈ names, CanShow n) (f : EntryFacts) (hfat : ∀ i g, f.kind = .fat i g → i < 2 ^ 32)
    (hs : ∀ x ∈ f.streams, ∀ n, x.1 = some n → CanShow n) (ht : ∀ t, f.target = some t → ∀ c ∈ t, ¬ isControl c ∧ c ≠ 0x5c ∧ c ≠ 0x7c)
    (r : BodyRow) (hr : r ∈ f.rows (if md5 then some fun contents => (Hasher.formatAsString (specDigest .md5 contents)).map Char.toNat else none) above names) :
    splitFields r.line = r.fields ∧ ∀ c ∈ r.line, ¬ isControl c := by
  have hlink : Tidy (linkText f.target) := by
    cases h : f.target with
    | none => exact ⟨closed_nil, by simp [linkText]⟩
    | some t =>
      exact Tidy.append (Plain.tidy (by unfold Plain; decide)) ⟨closed_plain fun c hc => (ht t h c hc).2, fun c hc => (ht t h c hc).1⟩
  have hnone : above ++ shownPath true names = above ++ shownStream true names none := by simp [shownStream]
  simp only [EntryFacts.rows, List.cons_append, List.mem_cons, List.mem_append, List.mem_filterMap, List.mem_map] at hr
  rcases hr with hr | ⟨⟨name, contents⟩, hx, hr⟩ | ⟨x, -, hr⟩
  · exact tidy_row md5 f.contents f hfat _ (by rw [hnone]; exact (tidy_stream i above ha names none hn (by simp)).append hlink) _ _ _ _ _ r hr
  · cases name with
    | none => simp at hr
    | some n =>
      simp only [Option.map_some, Option.some.injEq] at hr
      exact tidy_row md5 (some contents) f hfat _ ((tidy_stream i above ha names (some n) hn fun m hm => hs _ hx m (by simpa using hm)).append hlink)
        _ _ _ _ _ r hr.symm
  · exact tidy_row md5 f.contents f hfat _ (by
      rw [hnone]
      exact (tidy_stream i above ha names none hn (by simp)).append (Plain.tidy (by unfold Plain; decide))) _ _ _ _ _ r hr.symm

/-- C78 does not hold in full: the target of a symbolic link is not escaped. A vertical bar in it makes a line of twelve fields, and a
line feed makes two lines of one. -/
theorem C78_violated_link (md5 : Bool) (i : Nat) (above : List Nat) (ha : above = [] ∨ above = codePoints "/p" ++ codePoints (toString i))
    (names : List Name) (hn : ∀ n ∈ names, CanShow n) (f : EntryFacts) (hfat : ∀ i g, f.kind = .fat i g → i < 2 ^ 32) (t u : List Nat)
    (r : BodyRow) (hr : r = f.first (if md5 then some fun contents => (Hasher.formatAsString (specDigest .md5 contents)).map Char.toNat else none) above names) :
    (f.target = some (t ++ 0x7c :: u) → (∀ c ∈ t ++ u, c ≠ 0x5c ∧ c ≠ 0x7c) → (splitFields r.line).length = 12) ∧
    (f.target = some (t ++ 0x0a :: u) → 0x0a ∈ r.line) := by
  have hnone : above ++ shownPath true names = above ++ shownStream true names none := by simp [shownStream]
  have hpath := (tidy_stream i above ha names none hn (by simp)).1
  constructor
  · intro h1 h2
    have hline : r.line = List.intercalate [0x7c] ([r.md5, above ++ shownPath true names ++ (codePoints " -> " ++ t), u] ++ r.fields.drop 2) := by
      subst hr
      simp [EntryFacts.first, EntryFacts.row, BodyRow.line, BodyRow.fields, h1, linkText, List.intercalate]
    rw [hline]
    have := split_fields r.md5 ([above ++ shownPath true names ++ (codePoints " -> " ++ t), u] ++ r.fields.drop 2) fun x hx => by
      subst hr
      simp only [EntryFacts.first, EntryFacts.row, BodyRow.fields, List.drop_succ_cons, List.drop_zero, List.cons_append, List.nil_append, List.mem_cons,
        List.not_mem_nil, or_false] at hx
      rcases hx with rfl | rfl | rfl | rfl | rfl | rfl | rfl | rfl | rfl | rfl | rfl | rfl
      · exact (plain_md5 md5 _).closed
      · rw [hnone]
        exact closed_append hpath (closed_append (Plain.closed (by unfold Plain; decide)) (closed_plain fun c hc => h2 c (List.mem_append_left _ hc)))
      · exact closed_plain fun c hc => h2 c (List.mem_append_right _ hc)
      · exact (plain_identifier hfat).closed
      · exact (plain_mode _ _).closed
      · exact (plain_owner _).1.closed
      · exact (plain_owner _).2.closed
      · exact (plain_number _).closed
      · exact (plain_time _).closed
      · exact (plain_time _).closed
      · exact (plain_time _).closed
      · exact (plain_time _).closed
    rw [List.cons_append, this]
    rfl
  · intro h1
    subst hr
    simp [EntryFacts.first, EntryFacts.row, BodyRow.line, BodyRow.fields, h1, linkText, List.intercalate]

/-- C78 does not hold in full: the line of a $FILE_NAME attribute cannot be told from that of another file, of which the name ends
with " ($FILE_NAME)". -/
theorem C78_violated_name (digest : Option (List Byte → List Nat)) (above : List Nat) (names : List Name) (s : List Nat) (f g : EntryFacts)
    (hg : g.target = none) (x : ImageTool.FileName) :
    (f.named digest above (names ++ [.ucs2 s]) x).path = (g.first digest above (names ++ [.ucs2 (s ++ codePoints " ($FILE_NAME)")])).path := by
  have hshown : shownName true (.ucs2 (s ++ codePoints " ($FILE_NAME)")) = shownName true (.ucs2 s) ++ codePoints " ($FILE_NAME)" := by
    simp only [shownName, List.flatMap_append]
    congr 1
  simp only [EntryFacts.named, EntryFacts.first, EntryFacts.row, hg, linkText, List.append_nil, shownPath]
  rw [if_neg (by simp), if_neg (by simp), List.flatMap_append, List.flatMap_append]
  simp [hshown]

/-- C78 does not hold in full: there is no bodyfile of a FAT volume. The times of file entries in it are of kinds that are not
supported, so that the first file entry, if it is not the root directory, ends the tool; nothing is printed for the volume, and also
not for those behind it. -/
theorem C78_violated_fat (c : ImageTool.Config E S) (hmd5 : c.md5 = false) (location : Location ScanPath) (above : List Nat)
    (hfs : isFileSystem location.type = true) (ha : abovePath location = .ok above) (v : ImageTool.Volume E S) (ho : c.openVolume location = .ok v)
    (root : E) (tree : Spec.Tree E) (hr : v.root = .ok (some root)) (hb : tree.IsBelow v.toFiles root) (e : E) (names : List Name)
    (hn : ∀ n ∈ names, CanShow n) (more : List (Found E Name)) (hf : tree.found v.toFiles [] = .entry e (none :: names.map some) :: more)
    (ht : (v.info e).target = .ok none) (hdate : (v.info e).access = some .other) (behind : List VfsScanner.Node) :
    ∃ enough, ∀ fuel, enough ≤ fuel → nodesLines (ImageTool.walk c) fuel (.node location [] :: behind) = ([], .err) := by
  obtain ⟨n, hcalls⟩ := C67_every_entry_once v.toFiles root tree hr hb
  refine ⟨n + 1, fun fuel hfuel => ?_⟩
  have hentry : ImageTool.entryRows c fuel v above e (none :: names.map some) = ([], .err) := by
    have : ImageTool.parts c fuel (v.info e) (none :: names.map some) = .err := by
      unfold ImageTool.parts ImageTool.entryMd5
      rw [hmd5, ImageTool.table_eq, joinNames_shown true hn, ht, hdate]
      rfl
    unfold ImageTool.entryRows
    rw [this]
    rfl
  have hleaf : leafLines (ImageTool.walk c) fuel location = ([], .err) := by
    rw [leafLines, if_pos hfs, show (ImageTool.walk c).openVolume location = .ok v from ho, ha]
    simp only [after]
    obtain ⟨turns, rfl⟩ : ∃ m, fuel = m + 1 := ⟨fuel - 1, by omega⟩
    have hc := hcalls (turns + 1) (by omega) 1
    rw [hf, List.length_cons, show more.length + 1 + 1 = more.length + 1 + 1 from rfl, Finder.calls] at hc
    obtain ⟨⟨y, g⟩, hg, hc⟩ := R.bind_eq_ok.1 hc
    obtain ⟨ys, hys, hc⟩ := R.bind_eq_ok.1 hc
    simp only [R.pure_eq, R.ok.injEq, List.map_cons, List.cons_append, List.cons.injEq] at hc
    obtain ⟨rfl, -⟩ := hc
    rw [searchLines, show (ImageTool.walk c).files v = v.toFiles from rfl, hg]
    show (ImageTool.entryRows c (turns + 1) v above e (none :: names.map some)).andThen _ = _
    rw [hentry]
    rfl
  rw [nodesLines, nodeLines, hleaf]
  rfl

namespace ImageToolExample

/-- Reading from what is still to be read. -/
theorem list_stream (name : Option Name) (contents : List Byte) (h : contents.length < 2 ^ 61) :
    IsStream (fun s n => .ok (s.take n, s.drop n)) ⟨name, .ok contents⟩ ⟨name, some contents⟩ := by
  refine ⟨rfl, h, contents, fun s p => s = contents.drop p, rfl, rfl, ?_⟩
  intro s p n hs
  refine ⟨s.take n, s.drop n, rfl, ?_, ?_⟩
  · subst hs
    unfold readOk
    split
    · refine ⟨by simp, ?_, by simp⟩
      intro h1 h2
      rw [Int.toNat_natCast] at h2
      simp only [ne_eq, List.take_eq_nil_iff, List.drop_eq_nil_iff, not_or]
      omega
    · rw [List.drop_eq_nil_of_le (by omega), List.take_nil]
  · subst hs
    rw [List.drop_drop, List.length_take, List.length_drop]
    rcases Nat.le_total n (contents.length - p) with h | h
    · rw [Nat.min_eq_left h]
    · rw [Nat.min_eq_right h, List.drop_eq_nil_of_le (by omega), List.drop_eq_nil_of_le (by omega)]

def day : ImageTool.Time := .filetime 116444736015000000

/-- The $FILE_NAME attribute of "a|b", and that of its short name. -/
def fileName (nameSpace : Nat) : ImageTool.FileName := ⟨5, [0x61, 0x7c, 0x62], nameSpace, day, day, day, .notSet⟩

/-- What the root directory and the file "a|b" are. -/
def facts : Nat → EntryFacts
  | 1 => ⟨.ntfs 0x0005000000000005 6, .directory, 0, some day, some day, some day, some day, none, none, [], none, []⟩
  | _ => ⟨.ntfs 0x0001000000000027 1, .file, 3, some day, some day, some day, some .notSet, some [1, 2, 3], none,
      [(none, [1, 2, 3]), (some (.ucs2 [0x78]), [1])], some 5, [fileName 1, fileName 2]⟩

/-- A volume with the root directory and the file "a|b" of two data streams. -/
def files : ImageTool.Volume Nat (List Byte) where
  root := .ok (some 1)
  number := fun e => if e = 1 then .ok 1 else .ok 0
  name := fun e => if e = 1 then none else some (.ucs2 [0x61, 0x7c, 0x62])
  sub := fun e _ => .ok (e + 1)
  forks := fun e => .ok (facts e).streams.length
  fork := fun e i => match (facts e).streams[i]? with
    | some (name, contents) => .ok ⟨name, .ok contents⟩
    | none => .err
  info := fun e => ⟨(facts e).kind, (facts e).type, (facts e).size, (facts e).access, (facts e).modification, (facts e).change, (facts e).creation,
    .ok (facts e).contents, .ok none, (facts e).parent, .ok none :: (facts e).fileNames.map fun x => .ok (some x)⟩

def config (md5 : Bool) : ImageTool.Config Nat (List Byte) :=
  ⟨fun s n => .ok (s.take n, s.drop n), fun s => .ok s.length, fun _ => .ok files, md5⟩

def tree : Spec.Tree Nat := .node 1 (.opened (.node 2 .nil) .nil)

theorem found : tree.found files.toFiles [] = [.entry 2 [none, some (.ucs2 [0x61, 0x7c, 0x62])], .entry 1 [none]] := rfl

theorem describes (md5 : Bool) (e : Nat) (he : e = 1 ∨ e = 2) : Describes (config md5) files e (facts e) where
  kind := rfl
  type := rfl
  flagsType := by rcases he with rfl | rfl <;> simp [facts]
  mode := by rcases he with rfl | rfl <;> simp [facts]
  size := rfl
  times := ⟨rfl, rfl, rfl, rfl⟩
  supported := by rcases he with rfl | rfl <;> simp [facts, day]
  contents := by
    intro _
    rcases he with rfl | rfl
    · rfl
    · exact ⟨[1, 2, 3], rfl, list_stream none _ (by decide)⟩
  target := by rcases he with rfl | rfl <;> rfl
  number := rfl
  forks := by
    rcases he with rfl | rfl
    · intro i hi
      simp [facts] at hi
    · intro i hi
      match i, hi with
      | 0, _ => exact ⟨_, rfl, rfl, fun n hn => by simp [facts] at hn⟩
      | 1, _ =>
        refine ⟨_, rfl, rfl, fun n hn => ?_⟩
        have : n = .ucs2 [0x78] := by simpa [facts] using hn.symm
        subst this
        exact ⟨by simp [CanShow], [1], rfl, rfl, fun _ => list_stream _ _ (by decide)⟩
  parent := rfl
  fileNames := ⟨none :: (facts e).fileNames.map some, by simp [files], by simp⟩
  fileTimes := by rcases he with rfl | rfl <;> simp [facts, fileName, day]

theorem holds (md5 : Bool) (location : Location ScanPath) : HoldsEntries (config md5) location files 1 tree facts where
  opens := rfl
  hasRoot := rfl
  below := ⟨rfl, rfl, ⟨2, rfl, rfl, rfl, trivial⟩, trivial⟩
  rootName := rfl
  names := by
    intro e path h n hn
    rw [found] at h
    simp only [List.mem_cons, Found.entry.injEq, List.not_mem_nil, or_false] at h
    rcases h with ⟨-, rfl⟩ | ⟨-, rfl⟩
    · simp only [List.tail_cons, List.mem_singleton] at hn
      exact ⟨_, hn, by simp [CanShow]⟩
    · simp at hn
  entries := by
    intro e path h
    rw [found] at h
    simp only [List.mem_cons, Found.entry.injEq, List.not_mem_nil, or_false] at h
    exact describes md5 e (by omega)

/-- The image of `VfsScannerExample.world`, whose partitions 1 and 2 each have such a volume: the header and eight lines. -/
example : ∃ node, VfsScanner.scan VfsScannerExample.world (0 + 4) (.base (.os [0x61]) .os) = .ok node ∧
    ∃ enough, ∀ fuel, enough ≤ fuel → ImageTool.bodyfile (config false) fuel node =
      (["# extended bodyfile 3 format",
        "0|/p1/a\\|b|39-1|-r-xr-xr-x|||3|1.5000000|1.5000000|1.5000000|",
        "0|/p1/a\\|b:x|39-1|-r-xr-xr-x|||1|1.5000000|1.5000000|1.5000000|",
        "0|/p1/a\\|b ($FILE_NAME)|39-1|-r-xr-xr-x|||3|1.5000000|1.5000000|1.5000000|",
        "0|/p1/|5-5|dr-xr-xr-x|||0|1.5000000|1.5000000|1.5000000|1.5000000",
        "0|/p2/a\\|b|39-1|-r-xr-xr-x|||3|1.5000000|1.5000000|1.5000000|",
        "0|/p2/a\\|b:x|39-1|-r-xr-xr-x|||1|1.5000000|1.5000000|1.5000000|",
        "0|/p2/a\\|b ($FILE_NAME)|39-1|-r-xr-xr-x|||3|1.5000000|1.5000000|1.5000000|",
        "0|/p2/|5-5|dr-xr-xr-x|||0|1.5000000|1.5000000|1.5000000|1.5000000"].map codePoints, .ok ()) := by
  have hw : HoldsContent VfsScannerExample.world [0x61] 0 VfsScannerExample.content := by
    refine ⟨by decide +kernel, VfsParts.ofLayers .qcow [1, 2], 2, rfl, rfl, rfl, by decide, by decide, ?_, rfl, ?_⟩
    · rintro (h | h | h) <;> cases h
    · refine ⟨.inl ⟨.inr rfl, by decide +kernel⟩, by decide, VfsParts.ofLayers .gpt [3, 4, 5], rfl, rfl, rfl, ?_⟩
      intro i hi
      match i, hi with
      | 0, _ => exact ⟨3, rfl, by show VfsScannerExample.world.scan _ _ = _; decide +kernel⟩
      | 1, _ => exact ⟨4, rfl, by show VfsScannerExample.world.scan _ _ = _; decide +kernel⟩
      | 2, _ => exact ⟨5, rfl, by show VfsScannerExample.world.scan _ _ = _; decide +kernel⟩
  obtain ⟨node, h1, n, h2⟩ := C78_rows_partial VfsScannerExample.world 0 [0x61] 0 VfsScannerExample.content rfl hw
    (by intro k n x h; cases h; exact .inr (.inl rfl)) (config false) (fun _ => files) (fun _ => 1) (fun _ => tree) (fun _ => facts)
    (fun _ location _ => holds false location)
  refine ⟨node, h1, n, fun fuel hf => ?_⟩
  rw [h2 fuel hf]
  decide +kernel

/-- With the MD5 of the data streams. -/
example (location : Location ScanPath) (h : location.type = .ntfs) (ha : abovePath location = .ok []) : ∃ enough, ∀ fuel, enough ≤ fuel →
    (leafLines (ImageTool.walk (config true)) fuel location).1.head? =
      some (digestText .md5 [1, 2, 3] ++ codePoints "|/a\\|b|39-1|-r-xr-xr-x|||3|1.5000000|1.5000000|1.5000000|") := by
  obtain ⟨n, hn⟩ := ImageTool.leafLines_rows (config true) (holds true location) [] (by simp) (by rw [h]; rfl) ha
  refine ⟨n, fun fuel hf => ?_⟩
  rw [hn fuel hf, found]
  have e : codePoints "|/a\\|b|39-1|-r-xr-xr-x|||3|1.5000000|1.5000000|1.5000000|" = List.intercalate [0x7c]
    ([] :: ((facts 2).first none [] [.ucs2 [0x61, 0x7c, 0x62]]).fields.tail) := by decide +kernel
  rw [e]
  simp [foundRows, showRows, EntryFacts.rows, BodyRow.line, BodyRow.fields, EntryFacts.first, EntryFacts.row, md5Text, ImageTool.digestOf, config, namesOf,
    ImageTool.md5Of, facts, List.intercalate]

/-- The lines of the file are read again; one of a link with a vertical bar is not. -/
example : splitFields (codePoints "0|/a\\|b|39-1|-r-xr-xr-x|||3|1.5000000|1.5000000|1.5000000|") =
    ["0", "/a\\|b", "39-1", "-r-xr-xr-x", "", "", "3", "1.5000000", "1.5000000", "1.5000000", ""].map codePoints := by decide +kernel

/-- The hypotheses of `C78_fields` hold for the file. -/
example (r : BodyRow) (hr : r ∈ (facts 2).rows none [] [.ucs2 [0x61, 0x7c, 0x62]]) : splitFields r.line = r.fields :=
  (C78_fields false 0 [] (.inl rfl) _ (by simp [CanShow]) (facts 2) (by simp [facts]) (by simp [facts, CanShow]) (by simp [facts]) r hr).1

/-- A symbolic link to "x|y" in an ext file system. -/
def link : EntryFacts := ⟨.ext 12 0xa1ff 1000 1000, .symbolicLink, 3, some (.posix32 1), some (.posix32 1), some (.posix32 1), none, none,
  some [0x78, 0x7c, 0x79], [], none, []⟩

example : (link.first none [] [.byte [0x6c]]).line = codePoints "0|/l -> x|y|12|lrwxrwxrwx|1000|1000|3|1|1|1|" := by decide +kernel

example : (splitFields (link.first none [] [.text [0x6c]]).line).length = 12 :=
  (C78_violated_link false 0 [] (.inl rfl) _ (by simp [CanShow]) link (by simp [link]) [0x78] [0x79] _ rfl).1 rfl (by simp)

/-- A FAT volume with one file. -/
def fat : ImageTool.Volume Nat (List Byte) :=
  { files with info := fun e => ⟨.fat (32 * e) 0x20, if e = 1 then .directory else .file, 3, if e = 1 then none else some .other, none, none, none,
      .ok none, .ok none, none, []⟩ }

example : ∃ enough, ∀ fuel, enough ≤ fuel → nodesLines (ImageTool.walk { config false with openVolume := fun _ => .ok fat }) fuel
    [.node (.layer (.vfs (.fat [.ucs2 []])) (.base (.os [0x61]) .os) .fat) []] = ([], .err) :=
  C78_violated_fat _ rfl _ [] rfl rfl fat rfl 1 tree rfl ⟨rfl, rfl, ⟨2, rfl, rfl, rfl, trivial⟩, trivial⟩ 2 [.ucs2 [0x61, 0x7c, 0x62]] (by simp [CanShow])
    [.entry 1 [none]] rfl rfl rfl []

end ImageToolExample

end Keramics.Props
