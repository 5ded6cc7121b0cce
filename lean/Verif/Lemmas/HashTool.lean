import Verif.Spec.HashTool
import Verif.Props.Streams
import Verif.Props.Utf8
import Verif.Props.Finder
import Verif.Props.VfsScanner

/-! # Lemmas: the hash tool -/

namespace Keramics.HashTool
open Spec Finder
open Vfs (Location VfsType)
open VfsScanner (ScanPath Node)

variable {E S : Type}

theorem shownChar_false : shownChar false = Display.character := by
  funext c
  simp [shownChar]

theorem escape_shown (bar : Bool) {n : Name} (h : CanShow n) : escape (shownChar bar) (some n) = .ok (shownName bar n) := by
  cases n with
  | byte s =>
    obtain ⟨cs, h1, h2⟩ := h
    simp only [escape, shownName, nameChars, h2, Props.C18_decode_encode cs h1]
  | os => exact h.elim
  | text s => rfl
  | ucs2 s => rfl

theorem mapM_escape (bar : Bool) {names : List Name} (h : ∀ n ∈ names, CanShow n) :
    (names.map some).mapM (escape (shownChar bar)) = .ok (names.map (shownName bar)) := by
  induction names with
  | nil => rfl
  | cons n names ih =>
    rw [List.map_cons, List.mapM_cons, escape_shown bar (h n (by simp)), R.ok_bind, ih fun m hm => h m (List.mem_cons_of_mem _ hm)]
    rfl

theorem intercalate_slash (l : List (List Nat)) : List.intercalate [0x2f] ([] :: l) = l.flatMap fun x => 0x2f :: x := by
  have key : ∀ (a : List Nat) (l : List (List Nat)), List.intercalate [0x2f] (a :: l) = a ++ l.flatMap fun x => 0x2f :: x := by
    intro a l
    induction l generalizing a with
    | nil => simp [List.intercalate]
    | cons b l ih =>
      have := ih b
      simp only [List.intercalate, List.intersperse_cons₂, List.flatten_cons] at this ⊢
      rw [this]
      simp
  exact key [] l

theorem joinNames_shown (bar : Bool) {names : List Name} (h : ∀ n ∈ names, CanShow n) :
    joinNames (shownChar bar) (none :: names.map some) = .ok (shownPath bar names) := by
  unfold joinNames shownPath
  cases names with
  | nil => simp [isEmpty]
  | cons n names =>
    rw [if_neg (by simp), if_neg (by simp), List.mapM_cons]
    have := mapM_escape bar h
    simp only [escape, R.ok_bind, this, R.pure_eq]
    rw [intercalate_slash, List.flatMap_map]

theorem withName_shown {names : List Name} {x : Option Name} (h : ∀ n, x = some n → CanShow n) :
    withName (shownPath false names) x = .ok (shownStream false names x) := by
  cases x with
  | none => simp [withName, shownStream]
  | some n => simp [withName, ← shownChar_false, escape_shown false (h n rfl), shownStream]

/-- The text of the digest. -/
noncomputable def digestText (t : Hasher.HashType) (contents : List Byte) : List Nat :=
  (Hasher.formatAsString (Props.specDigest t contents)).map Char.toNat

theorem showItems_append (a b : List Item) : showItems (a ++ b) = Out.andThen (showItems a) (showItems b) := by
  induction a with
  | nil => rfl
  | cons x a ih =>
    cases x with
    | failure => rfl
    | line r p =>
      simp only [List.cons_append, showItems, ih, Out.andThen]
      cases h : (showItems a).2 <;> simp [h]

/-- A read that fails ends the loop. -/
theorem loop_fails {H : Type} (A : Digest.Alg H) (read : S → Nat → R (List Byte × S))
    (hA : ∀ chunks : List (List Byte), chunks.flatten.length < 2 ^ 61 → ∃ c, chunks.foldlM (Digest.Ctx.update A) (Digest.Ctx.new A) = R.ok c)
    {s : S} {k : Nat} (h : FailsAfter read s k) (fuel : Nat) (hf : k < fuel) (chunks : List (List Byte)) (c : Digest.Ctx H)
    (hc : chunks.foldlM (Digest.Ctx.update A) (Digest.Ctx.new A) = R.ok c) (hl : chunks.flatten.length + k < 2 ^ 61) :
    Hasher.loop A read fuel c s = .err := by
  induction h generalizing fuel chunks c with
  | now e =>
    obtain ⟨fuel, rfl⟩ : ∃ m, fuel = m + 1 := ⟨fuel - 1, by omega⟩
    rw [Hasher.loop, e, R.err_bind]
  | @later s out s' k e hne _ ih =>
    have hpos : 0 < out.length := List.length_pos_iff.2 hne
    obtain ⟨fuel, rfl⟩ : ∃ m, fuel = m + 1 := ⟨fuel - 1, by omega⟩
    have hlen : (chunks ++ [out]).flatten.length = chunks.flatten.length + out.length := by simp
    obtain ⟨c', hc'⟩ := hA (chunks ++ [out]) (by omega)
    have hupd : Digest.Ctx.update A c out = .ok c' := by
      rw [List.foldlM_append, hc, R.ok_bind] at hc'
      rw [List.foldlM_cons] at hc'
      obtain ⟨d, hd, he⟩ := R.bind_eq_ok.1 hc'
      cases he
      exact hd
    rw [Hasher.loop, e, R.ok_bind]
    simp only
    rw [if_neg (by omega), hupd, R.ok_bind]
    exact ih fuel (by omega) (chunks ++ [out]) c' hc' (by omega)

theorem fold_ok {H β : Type} {A : Digest.Alg H} {chunks : List (List Byte)} {y : β × Digest.Ctx H} {g : Digest.Ctx H → R (β × Digest.Ctx H)}
    (h : (do let c ← chunks.foldlM (Digest.Ctx.update A) (Digest.Ctx.new A); g c) = R.ok y) :
    ∃ c, chunks.foldlM (Digest.Ctx.update A) (Digest.Ctx.new A) = R.ok c := by
  obtain ⟨c, hc, -⟩ := R.bind_eq_ok.1 h
  exact ⟨c, hc⟩

theorem calculateHash_fails (t : Hasher.HashType) (read : S → Nat → R (List Byte × S)) {s : S} {k : Nat} (h : FailsAfter read s k)
    (hk : k < 2 ^ 61) (fuel : Nat) (hf : k < fuel) : Hasher.calculateHash t read fuel s = .err := by
  have key : ∀ {H : Type} (A : Digest.Alg H), (∀ chunks : List (List Byte), chunks.flatten.length < 2 ^ 61 →
      ∃ c, chunks.foldlM (Digest.Ctx.update A) (Digest.Ctx.new A) = R.ok c) → Hasher.loop A read fuel (Digest.Ctx.new A) s = .err :=
    fun A hA => loop_fails A read hA h fuel hf [] _ rfl (by simpa using hk)
  cases t <;> simp only [Hasher.calculateHash]
  · rw [key Digest.md5 fun ch hl => fold_ok (Props.C04_md5_chunked ch hl)]; rfl
  · rw [key Digest.sha1 fun ch hl => fold_ok (Props.C05_sha1_chunked ch hl)]; rfl
  · rw [key Digest.sha224 fun ch hl => fold_ok (Props.C06_sha224_chunked ch hl)]; rfl
  · rw [key Digest.sha256 fun ch hl => fold_ok (Props.C06_sha256_chunked ch hl)]; rfl
  · rw [key Digest.sha512 fun ch hl => fold_ok (Props.C07_sha512_chunked ch hl)]; rfl

/-- The result for a data fork. -/
theorem forkHash_stream (c : Config E S) (fuel : Nat) (hf : 2 ^ 61 ≤ fuel) (f : Fork S) (x : NamedStream) (h : IsStream c.read f x) :
    forkHash c fuel f = match x.contents with
      | some contents => .ok (digestText c.hashType contents)
      | none => if c.stop then .err else .ok (codePoints "N/A (error)") := by
  obtain ⟨-, h⟩ := h
  cases hx : x.contents with
  | some contents =>
    simp only [hx] at h
    obtain ⟨hl, s, position, hs, h0, hr⟩ := h
    have := Props.C10_hasher c.hashType contents hl c.read position hr s h0 fuel (by omega)
    simp only [forkHash, hs, R.ok_bind, streamHash, this]
    rfl
  | none =>
    simp only [hx] at h
    rcases h with h | ⟨s, k, hs, hk, hl⟩
    · simp only [forkHash, h, R.err_bind]
    · have := calculateHash_fails c.hashType c.read hk hl fuel (by omega)
      simp only [forkHash, hs, R.ok_bind, streamHash, this, R.err_bind]

theorem skipped_eq (names : List Name) (x : NamedStream) : skipped (none :: names.map some) x.name = notRead names x := by
  cases names with
  | nil => simp [skipped, notRead]
  | cons n names => simp [skipped, notRead]

/-- A turn of the loop over the data forks. -/
theorem forkLine_item (c : Config E S) (fuel : Nat) (hf : 2 ^ 61 ≤ fuel) (v : Volume E S) (above : List Nat) (names : List Name) (e : E) (i : Nat)
    (f : Fork S) (x : NamedStream) (hv : v.fork e i = .ok f) (hn : ∀ n, x.name = some n → CanShow n) (hx : IsStream c.read f x) :
    printed (forkLine c fuel v above (shownPath false names) (none :: names.map some) e i)
      = showItems [streamItem (digestText c.hashType) c.stop above names x] := by
  have hname := hx.1
  simp only [forkLine, hv, R.ok_bind, hname, withName_shown hn, result, skipped_eq]
  unfold streamItem
  by_cases hs : notRead names x = true
  · simp [hs, printed, showItems]
  · simp only [hs, Bool.false_eq_true, if_false]
    rw [forkHash_stream c fuel hf f x hx]
    cases x.contents with
    | some contents => simp [printed, showItems]
    | none =>
      by_cases hst : c.stop = true
      · simp [hst, printed, showItems]
      · simp [hst, printed, showItems]

theorem forkLines_items (c : Config E S) (fuel : Nat) (hf : 2 ^ 61 ≤ fuel) (v : Volume E S) (above : List Nat) (names : List Name) (e : E)
    (xs : List NamedStream) (i : Nat)
    (h : ∀ j (hj : j < xs.length), (∀ n, xs[j].name = some n → CanShow n) ∧ ∃ f, v.fork e (i + j) = .ok f ∧ IsStream c.read f xs[j]) :
    forkLines c fuel v above (shownPath false names) (none :: names.map some) e xs.length i
      = showItems (xs.map (streamItem (digestText c.hashType) c.stop above names)) := by
  induction xs generalizing i with
  | nil => rfl
  | cons x xs ih =>
    obtain ⟨hn, f, hf1, hf2⟩ := h 0 (by simp)
    have hrest := ih (i + 1) fun j hj => by
      have := h (j + 1) (by simpa using hj)
      rw [show i + (j + 1) = i + 1 + j by omega] at this
      exact this
    rw [List.map_cons, List.length_cons, forkLines, hrest, ← List.singleton_append (x := streamItem _ _ _ _ x), showItems_append]
    congr 1
    exact forkLine_item c fuel hf v above names e i f x (by simpa using hf1) hn hf2

mutual
/-- The paths of what is found in a tree begin with the name of its root. -/
theorem tree_paths (fs : Files E Name) (t : Spec.Tree E) (r : E) (h : t.IsBelow fs r) (path : List (Option Name)) (e : E) (p : List (Option Name))
    (hm : Found.entry e p ∈ t.found fs path) : ∃ q, p = path ++ fs.name r :: q := by
  match t, h with
  | .node a subs, ⟨he, _, hs⟩ =>
    subst he
    simp only [Spec.Tree.found, List.mem_append, List.mem_singleton, Found.entry.injEq] at hm
    rcases hm with hm | ⟨-, rfl⟩
    · obtain ⟨q, rfl⟩ := forest_paths fs subs a 0 hs _ e p hm
      exact ⟨q, by simp⟩
    · exact ⟨[], by simp⟩
theorem forest_paths (fs : Files E Name) (s : Forest E) (r : E) (i : Nat) (h : s.AreIn fs r i) (path : List (Option Name)) (e : E)
    (p : List (Option Name)) (hm : Found.entry e p ∈ s.found fs path) : ∃ q, p = path ++ q := by
  match s, h with
  | .nil, _ => simp [Forest.found] at hm
  | .opened t more, ⟨⟨c, _, ht⟩, hmore⟩ =>
    simp only [Forest.found, List.mem_append] at hm
    rcases hm with hm | hm
    · obtain ⟨q, rfl⟩ := tree_paths fs t c ht path e p hm
      exact ⟨_, rfl⟩
    · exact forest_paths fs more r (i + 1) hmore path e p hm
  | .lost more, ⟨_, hmore⟩ =>
    simp only [Forest.found, List.mem_cons, reduceCtorEq, false_or] at hm
    exact forest_paths fs more r (i + 1) hmore path e p hm
end

/-- A path of the finder whose names are there. -/
theorem path_names {p : List (Option Name)} (h : ∀ n ∈ p, ∃ m, n = some m ∧ CanShow m) :
    p = (p.filterMap id).map some ∧ ∀ n ∈ p.filterMap id, CanShow n := by
  induction p with
  | nil => simp
  | cons a p ih =>
    obtain ⟨m, rfl, hm⟩ := h a (by simp)
    obtain ⟨h1, h2⟩ := ih fun n hn => h n (List.mem_cons_of_mem _ hn)
    have e : (some m :: p).filterMap id = m :: p.filterMap id := rfl
    rw [e]
    constructor
    · rw [List.map_cons, ← h1]
    · intro n hn
      rw [List.mem_cons] at hn
      rcases hn with rfl | hn
      · exact hm
      · exact h2 n hn

/-- What is printed for a file entry. -/
theorem entryLines_items (c : Config E S) (fuel : Nat) (hf : 2 ^ 61 ≤ fuel) {location : Location ScanPath} {v : Volume E S} {root : E} {tree : Spec.Tree E}
    {streams : E → List NamedStream} (h : HoldsFiles c location v root tree streams) (above : List Nat) (e : E) (path : List (Option Name))
    (hm : Found.entry e path ∈ tree.found v.toFiles []) :
    entryLines c fuel v above e path = showItems (foundItems (digestText c.hashType) c.stop above streams (.entry e path)) := by
  obtain ⟨q, hq⟩ := tree_paths v.toFiles tree root h.below [] e path hm
  rw [h.rootName, List.nil_append] at hq
  have hn := h.names e path hm
  rw [hq, List.tail_cons] at hn
  obtain ⟨h1, h2⟩ := path_names hn
  have hnames : namesOf path = q.filterMap id := by rw [hq]; rfl
  simp only [entryLines, foundItems, hnames]
  rw [hq, h1, ← shownChar_false, joinNames_shown false h2, h.number e path hm]
  simp only [after]
  rw [← h1]
  have := forkLines_items c fuel hf v above (q.filterMap id) e (streams e) 0 fun j hj => by
    rw [Nat.zero_add]
    exact h.forks e path hm j hj
  rw [← h1] at this
  exact this

theorem andThen_assoc (a b c : Out) : (a.andThen b).andThen c = a.andThen (b.andThen c) := by
  unfold Out.andThen
  cases ha : a.2 with
  | ok _ => cases hb : b.2 <;> simp [hb]
  | err => simp [ha]
  | panic => simp [ha]

theorem andThen_done (a : Out) : a.andThen ([], .ok ()) = a := by
  unfold Out.andThen
  cases h : a.2 with
  | ok u => simp [← h]
  | err => rfl
  | panic => rfl

theorem done_andThen (a : Out) : Out.andThen ([], .ok ()) a = a := rfl

/-- What is printed by one after the other. -/
def concat (l : List Out) : Out := l.foldr Out.andThen ([], .ok ())

theorem concat_cons (a : Out) (l : List Out) : concat (a :: l) = a.andThen (concat l) := rfl

theorem concat_append (a b : List Out) : concat (a ++ b) = (concat a).andThen (concat b) := by
  induction a with
  | nil => rfl
  | cons x a ih => rw [List.cons_append, concat_cons, ih, concat_cons, andThen_assoc]

theorem concat_items {α : Type} (f : α → List Item) (l : List α) : concat (l.map fun x => showItems (f x)) = showItems (l.flatMap f) := by
  induction l with
  | nil => rfl
  | cons x l ih => rw [List.map_cons, concat_cons, ih, List.flatMap_cons, showItems_append]

variable {V : Type}

/-- The loop over what the finder gives. -/
theorem searchLines_concat (fs : Files E Name) (fuel : Nat) (entry : E → List (Option Name) → Out) (out : Found E Name → Out)
    (he : out .error = ([], .err)) (xs : List (Found E Name))
    (hx : ∀ e path, Found.entry e path ∈ xs → entry e path = out (.entry e path))
    (f : Finder.Finder E Name) (hc : Finder.calls fs fuel (xs.length + 1) f = .ok (xs.map some ++ [none])) (turns : Nat) (ht : xs.length < turns) :
    searchLines fs fuel entry turns f = concat (xs.map out) := by
  induction xs generalizing f turns with
  | nil =>
    obtain ⟨turns, rfl⟩ : ∃ m, turns = m + 1 := ⟨turns - 1, by simp at ht; omega⟩
    simp only [List.length_nil, Nat.zero_add, Finder.calls] at hc
    obtain ⟨⟨x, g⟩, hg, hc⟩ := R.bind_eq_ok.1 hc
    have hx : x = none := by simpa using hc
    rw [searchLines, hg, hx]
    rfl
  | cons x xs ih =>
    obtain ⟨turns, rfl⟩ : ∃ m, turns = m + 1 := ⟨turns - 1, by omega⟩
    rw [List.length_cons, Finder.calls] at hc
    obtain ⟨⟨y, g⟩, hg, hc⟩ := R.bind_eq_ok.1 hc
    obtain ⟨ys, hys, hc⟩ := R.bind_eq_ok.1 hc
    simp only [R.pure_eq, R.ok.injEq, List.map_cons, List.cons_append, List.cons.injEq] at hc
    obtain ⟨rfl, rfl⟩ := hc
    rw [searchLines, hg, List.map_cons, concat_cons]
    cases x with
    | error =>
      rw [he]
      rfl
    | entry e path =>
      simp only
      rw [hx e path (by simp), ih (fun e p h => hx e p (List.mem_cons_of_mem _ h)) g hys turns (by simp at ht; omega)]

/-- What is printed for a volume. -/
theorem leafLines_concat (w : Walk V E) (location : Location ScanPath) (v : V) (root : E) (tree : Spec.Tree E) (above : List Nat)
    (hfs : isFileSystem location.type = true) (ha : abovePath location = .ok above) (ho : w.openVolume location = .ok v)
    (hr : (w.files v).root = .ok (some root)) (ht : tree.IsBelow (w.files v) root) (out : Found E Name → Out) (he : out .error = ([], .err)) (least : Nat)
    (hx : ∀ fuel, least ≤ fuel → ∀ e path, Found.entry e path ∈ tree.found (w.files v) [] → w.entry fuel v above e path = out (.entry e path)) :
    ∃ enough, ∀ fuel, enough ≤ fuel → leafLines w fuel location = concat ((tree.found (w.files v) []).map out) := by
  obtain ⟨n, hn⟩ := Props.C67_every_entry_once (w.files v) root tree hr ht
  refine ⟨max least (max n ((tree.found (w.files v) []).length + 1)), fun fuel hf => ?_⟩
  rw [leafLines, if_pos hfs, ho, ha]
  simp only [after]
  exact searchLines_concat (w.files v) fuel _ out he _ (hx fuel (by omega)) _ (by simpa using hn fuel (by omega) 1) fuel (by omega)

/-- What the hash tool prints for a volume. -/
theorem leafLines_items (c : Config E S) {location : Location ScanPath} {v : Volume E S} {root : E} {tree : Spec.Tree E}
    {streams : E → List NamedStream} (h : HoldsFiles c location v root tree streams) (above : List Nat) (hfs : isFileSystem location.type = true)
    (ha : abovePath location = .ok above) : ∃ enough, ∀ fuel, enough ≤ fuel →
      leafLines (walk c) fuel location = showItems ((tree.found v.toFiles []).flatMap (foundItems (digestText c.hashType) c.stop above streams)) := by
  rw [← concat_items]
  exact leafLines_concat (walk c) location v root tree above hfs ha h.opens h.hasRoot h.below _ rfl (2 ^ 61)
    fun fuel hf e p hm => entryLines_items c fuel hf h above e p hm

theorem nodesLines_append (w : Walk V E) (fuel : Nat) (a b : List Node) :
    nodesLines w fuel (a ++ b) = (nodesLines w fuel a).andThen (nodesLines w fuel b) := by
  induction a with
  | nil => simp [nodesLines, Out.andThen]
  | cons x a ih => rw [List.cons_append, nodesLines, ih, nodesLines, andThen_assoc]

theorem nodeLines_subs (w : Walk V E) (fuel : Nat) (location : Location ScanPath) (subs : List Node) (h : subs ≠ []) :
    nodeLines w fuel (.node location subs) = nodesLines w fuel subs := by
  cases subs with
  | nil => exact absurd rfl h
  | cons s subs => rw [nodeLines, nodesLines]

theorem nodesLines_one (w : Walk V E) (fuel : Nat) (n : Node) : nodesLines w fuel [n] = nodeLines w fuel n := by
  rw [nodesLines, nodesLines, andThen_done]

theorem replace_none (find by' text : List Nat) (c : Nat) (more : List Nat) (hf : find = c :: more) (h : ∀ x ∈ text, x ≠ c) :
    replace find by' 0 text = text := by
  induction text with
  | nil => rfl
  | cons x text ih =>
    have hx := h x (by simp)
    rw [replace, if_neg, ih fun y hy => h y (List.mem_cons_of_mem _ hy)]
    rw [hf]
    simp [List.isPrefixOf]
    intro h
    exact absurd h.symm hx

/-- The text of a number. -/
theorem digits_of (n : Nat) : ∀ c ∈ codePoints (toString n), 48 ≤ c ∧ c ≤ 57 := by
  rw [← VfsScanner.decimal_eq]
  exact (VfsParts.decimal_spec n).1.2.1

/-- The display path of a partition. -/
theorem part_index (k : PartsKind) (hk : k = .apm ∨ k = .gpt ∨ k = .mbr) (n : Nat) (location : Location ScanPath) :
    indexPath (partLocation k n location) = .ok (codePoints "/p" ++ codePoints (toString n)) := by
  have hd := digits_of n
  generalize hg : codePoints (toString n) = digits at hd
  have htext : ∀ label : List Nat, pathText (.vfs (.string [[], label ++ digits])) = .ok (0x2f :: (label ++ digits)) := by
    intro label
    simp [pathText, Path.VfsPath.text, Path.toText, Path.joinText]
  have hrep : ∀ (a b c : Nat), a ≠ 0x2f → a < 48 ∨ 57 < a → replace [a, b, c] (codePoints "p") 0 (0x2f :: ([a, b, c] ++ digits)) = codePoints "/p" ++ digits := by
    intro a b c h1 h2
    have hn : replace [a, b, c] (codePoints "p") 0 digits = digits :=
      replace_none _ _ _ a [b, c] rfl fun x hx => by have := hd x hx; omega
    simp [replace, List.isPrefixOf, h1, hn]
    rfl
  rcases hk with hk | hk | hk <;> subst hk <;>
    simp only [partLocation, PartsKind.type, PartsKind.label, indexPath, hg, htext, R.ok_bind]
  · exact congrArg R.ok (hrep 0x61 0x70 0x6d (by decide) (by decide))
  · exact congrArg R.ok (hrep 0x67 0x70 0x74 (by decide) (by decide))
  · exact congrArg R.ok (hrep 0x6d 0x62 0x72 (by decide) (by decide))

theorem image_index (k : PartsKind) (hk : k = .ewf ∨ k = .qcow ∨ k = .vhd ∨ k = .vhdx) (n : Nat) (location : Location ScanPath) :
    indexPath (partLocation k n location) = .ok [] := by
  have htext : ∀ name : List Nat, ∃ t, pathText (.vfs (.string [[], name])) = .ok t :=
    fun name => ⟨0x2f :: name, by simp [pathText, Path.VfsPath.text, Path.toText, Path.joinText]⟩
  rcases hk with hk | hk | hk | hk <;> subst hk <;> simp only [partLocation, PartsKind.type, PartsKind.label, indexPath] <;>
    obtain ⟨t, ht⟩ := htext (_ ++ codePoints (toString n)) <;> rw [ht] <;> rfl

/-- A node that is no file system prints what its sub nodes print. -/
theorem node_lines (w : Walk V E) (location : Location ScanPath) (h : isFileSystem location.type = false) (subs : List Node) (fuel : Nat) :
    nodeLines w fuel (.node location subs) = nodesLines w fuel subs := by
  cases subs with
  | nil => rw [nodeLines, leafLines, h, nodesLines]; rfl
  | cons s subs => exact nodeLines_subs w fuel location _ (by simp)

theorem parts_type (k : PartsKind) : isFileSystem k.type = false := by cases k <;> rfl

variable {w : Walk V E} {out : List Nat × Location ScanPath → Out}

/-- A volume prints what it should. -/
def Prints (w : Walk V E) (out : List Nat × Location ScanPath → Out) (x : List Nat × Location ScanPath) : Prop :=
  isFileSystem x.2.type = true → abovePath x.2 = .ok x.1 → ∃ enough, ∀ fuel, enough ≤ fuel → leafLines w fuel x.2 = out x

theorem volume_lines (f : Spec.Volume) (above : List Nat) (location : Location ScanPath) (ha : indexPath location = .ok above)
    (h : ∀ x ∈ f.listed above location, Prints w out x) :
    ∃ enough, ∀ fuel, enough ≤ fuel → nodesLines w fuel (f.nodes location) = concat ((f.listed above location).map out) := by
  cases f with
  | nothing => exact ⟨0, fun _ _ => rfl⟩
  | ext =>
    obtain ⟨n, hn⟩ := h _ (List.mem_singleton.2 rfl) rfl ha
    exact ⟨n, fun fuel hf => by
      show nodesLines w fuel [_] = _
      rw [nodesLines_one, nodeLines, hn fuel hf]
      exact (andThen_done _).symm⟩
  | fat =>
    obtain ⟨n, hn⟩ := h _ (List.mem_singleton.2 rfl) rfl ha
    exact ⟨n, fun fuel hf => by
      show nodesLines w fuel [_] = _
      rw [nodesLines_one, nodeLines, hn fuel hf]
      exact (andThen_done _).symm⟩
  | ntfs =>
    obtain ⟨n, hn⟩ := h _ (List.mem_singleton.2 rfl) rfl ha
    exact ⟨n, fun fuel hf => by
      show nodesLines w fuel [_] = _
      rw [nodesLines_one, nodeLines, hn fuel hf]
      exact (andThen_done _).symm⟩

theorem partitions_lines (k : PartsKind) (hk : k = .apm ∨ k = .gpt ∨ k = .mbr) (location : Location ScanPath) (ps : List Spec.Volume) (off : Nat)
    (h : ∀ x ∈ (ps.mapIdx fun i f => f.listed (codePoints "/p" ++ codePoints (toString (i + off + 1))) (partLocation k (i + off + 1) location)).flatten,
      Prints w out x) :
    ∃ enough, ∀ fuel, enough ≤ fuel →
      nodesLines w fuel (ps.mapIdx fun i f => .node (partLocation k (i + off + 1) location) (f.nodes (partLocation k (i + off + 1) location)))
        = concat ((ps.mapIdx fun i f => f.listed (codePoints "/p" ++ codePoints (toString (i + off + 1))) (partLocation k (i + off + 1) location)).flatten.map out) := by
  induction ps generalizing off with
  | nil => exact ⟨0, fun _ _ => rfl⟩
  | cons f ps ih =>
    simp only [List.mapIdx_cons, List.flatten_cons, Nat.zero_add] at h ⊢
    have e : ∀ i, i + 1 + off + 1 = i + (off + 1) + 1 := fun i => by omega
    simp only [e] at h ⊢
    obtain ⟨n1, h1⟩ := volume_lines f _ _ (part_index k hk (off + 1) location) fun x hx => h x (List.mem_append_left _ hx)
    obtain ⟨n2, h2⟩ := ih (off + 1) fun x hx => h x (List.mem_append_right _ hx)
    refine ⟨max n1 n2, fun fuel hf => ?_⟩
    rw [nodesLines, node_lines w (partLocation k (off + 1) location) (parts_type k), h1 fuel (by omega), h2 fuel (by omega), List.map_append, concat_append]

theorem disk_lines (d : Disk) (hd : ∀ k ps, d = .partitions k ps → k = .apm ∨ k = .gpt ∨ k = .mbr) (location : Location ScanPath)
    (ha : indexPath location = .ok []) (h : ∀ x ∈ d.listed location, Prints w out x) :
    ∃ enough, ∀ fuel, enough ≤ fuel → nodesLines w fuel (d.nodes location) = concat ((d.listed location).map out) := by
  cases d with
  | files f => exact volume_lines f [] location ha h
  | partitions k ps =>
    obtain ⟨n, hn⟩ := partitions_lines k (hd k ps rfl) location ps 0 h
    refine ⟨n, fun fuel hf => ?_⟩
    show nodesLines w fuel [_] = _
    rw [nodesLines_one, node_lines w (rootLocation k location) (parts_type k)]
    exact hn fuel hf

/-- What is printed for what the scanner finds in a file. -/
theorem content_lines {D : Type} (x : VfsScanner.World D) (source : List Nat) (d : D) (content : Content) (hw : HoldsContent x source d content)
    (hk : ∀ k n y, content = .image k n y → k = .ewf ∨ k = .qcow ∨ k = .vhd ∨ k = .vhdx)
    (h : ∀ y ∈ content.listed (.base (.os source) .os), Prints w out y) :
    ∃ enough, ∀ fuel, enough ≤ fuel →
      nodeLines w fuel (.node (.base (.os source) .os) (content.nodes (.base (.os source) .os))) = concat ((content.listed (.base (.os source) .os)).map out) := by
  have hkinds : ∀ (d : D) (disk : Disk), HoldsDisk x d disk → ∀ k ps, disk = .partitions k ps → k = .apm ∨ k = .gpt ∨ k = .mbr := by
    intro d disk h k ps e
    subst e
    exact VfsScanner.volumes_of x d k ps h
  simp only [node_lines w (.base (.os source) .os) rfl]
  cases content with
  | raw disk => exact disk_lines disk (hkinds d disk hw.2) _ rfl h
  | image k n disk =>
    obtain ⟨-, s, top, -, -, -, -, -, -, -, htop⟩ := hw
    obtain ⟨m, hm⟩ := disk_lines disk (hkinds top disk htop) (partLocation k n (.base (.os source) .os)) (image_index k (hk k n disk rfl) n _) h
    refine ⟨m, fun fuel hf => ?_⟩
    show nodesLines w fuel [.node (rootLocation k _) _] = _
    rw [nodesLines_one, node_lines w (rootLocation k _) (parts_type k)]
    exact hm fuel hf

end Keramics.HashTool
