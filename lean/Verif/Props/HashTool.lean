import Verif.Lemmas.HashTool
import Verif.Props.Tools

/-!
# C76: the hash tool lists the digest of every data stream
-/

namespace Keramics.Props
open Spec HashTool
open Vfs (Location)
open VfsScanner (ScanPath)

variable {E S D : Type}

/-- C76: the hash tool, run on a file that the scanner can scan, prints a line for every data stream of every file entry of every
volume in the file, each once: the digest of what the data stream contains in hexadecimal, and its path. A data stream that cannot be
read is a line that tells so, unless the tool is to stop on errors: then the lines before it are printed and the tool fails.
Missing: a file entry that cannot be opened ends the listing in any case (`C76_violated_lost`), as a name that is not valid UTF-8 does
(`C76_violated_name`). The paths are those with the numbers of partitions. -/
theorem C76_listing_partial (w : VfsScanner.World D) (depth : Nat) (source : List Nat) (d : D) (content : Content)
    (hos : w.os source = .ok (some ⟨.file, .ok d⟩)) (hw : HoldsContent w source d content)
    (hk : ∀ k n x, content = .image k n x → k = .ewf ∨ k = .qcow ∨ k = .vhd ∨ k = .vhdx)
    (hne : content.nodes (.base (.os source) .os) ≠ [])
    (c : Config E S) (file : R S) (v : Location ScanPath → HashTool.Volume E S) (root : Location ScanPath → E)
    (tree : Location ScanPath → Spec.Tree E) (streams : Location ScanPath → E → List NamedStream)
    (hv : ∀ above location, (above, location) ∈ content.listed (.base (.os source) .os) →
      HoldsFiles c location (v location) (root location) (tree location) (streams location)) :
    ∃ node, VfsScanner.scan w (depth + 4) (.base (.os source) .os) = .ok node ∧
      ∃ enough, ∀ fuel, enough ≤ fuel → toolLines c fuel source file node =
        showItems ((content.listed (.base (.os source) .os)).flatMap fun (above, location) =>
          ((tree location).found (v location).toFiles []).flatMap
            (foundItems (fun contents => (Hasher.formatAsString (specDigest c.hashType contents)).map Char.toNat) c.stop above (streams location))) := by
  refine ⟨_, C69_scan_partial w depth source d content hos hw hk, ?_⟩
  have htool : ∀ fuel, toolLines c fuel source file (.node (.base (.os source) .os) (content.nodes (.base (.os source) .os)))
      = nodeLines (walk c) fuel (.node (.base (.os source) .os) (content.nodes (.base (.os source) .os))) := by
    intro fuel
    generalize content.nodes (.base (.os source) .os) = subs at hne
    cases subs with
    | nil => exact absurd rfl hne
    | cons s subs => rfl
  simp only [htool]
  rw [← concat_items]
  exact content_lines w source d content hw hk fun x hx hfs ha => leafLines_items c (hv x.1 x.2 hx) x.1 hfs ha

/-- C76 for a file in which the scanner finds nothing: the digest of the file itself and its path; if it cannot be read, that it cannot, or
nothing. -/
theorem C76_file (c : Config E S) (source : List Nat) (s : S) (x : NamedStream) (hx : IsStream c.read ⟨none, .ok s⟩ x) (location : Location ScanPath)
    (fuel : Nat) (hf : 2 ^ 61 ≤ fuel) :
    toolLines c fuel source (.ok s) (.node location []) = match x.contents with
      | some contents => ([(Hasher.formatAsString (specDigest c.hashType contents)).map Char.toNat ++ codePoints "  " ++ source], .ok ())
      | none => if c.stop then ([], .err) else ([codePoints "N/A (error)" ++ codePoints "  " ++ source], .ok ()) := by
  simp only [toolLines, fileLine, after]
  rw [forkHash_stream c fuel hf _ x hx]
  cases x.contents with
  | some contents => rfl
  | none =>
    by_cases hst : c.stop = true
    · simp [hst, printed]
    · simp [hst, printed]

/-! ## The lines can be told apart -/

/-- The escaped characters of a name. -/
def token (bar : Bool) : Name → Nat → List Nat
  | .byte _, c => if Display.isChar c then shownChar bar c else [0x5c, 0x55, 0x7b] ++ Display.hex 8 c ++ [0x7d]
  | .ucs2 _, c => if Display.isChar c then shownChar bar c else [0x5c, 0x55] ++ Display.hex 8 c
  | _, c => shownChar bar c

theorem shown_tokens (bar : Bool) (n : Name) : shownName bar n = (nameChars n).flatMap (token bar n) := by
  cases n <;> rfl

theorem token_cases (bar : Bool) (n : Name) (c : Nat) : token bar n c = [0x5c, 0x7c] ∧ c = 0x7c ∨ token bar n c = token false n c := by
  by_cases h : bar = true ∧ c = 0x7c
  · left
    obtain ⟨rfl, rfl⟩ := h
    cases n <;> exact ⟨rfl, rfl⟩
  · right
    have : shownChar bar c = shownChar false c := by simp [shownChar, h]
    cases n <;> simp only [token, this]

theorem token_unescape (bar : Bool) {n : Name} (h : CanShow n) : ∀ c ∈ nameChars n, ∀ rest, unescape (token bar n c ++ rest) = some (c, rest) := by
  intro c hc rest
  rcases token_cases bar n c with ⟨h1, h2⟩ | h1
  · rw [h1, h2]
    rfl
  rw [h1]
  cases n with
  | byte s =>
    obtain ⟨cs, h1, h2⟩ := h
    simp only [nameChars, h2, C18_decode_encode cs h1] at hc
    have := h1 c hc
    simp only [token, shownChar_false]
    exact unescape_codePoint (by unfold Utf8.isScalar at this; omega) rest
  | os => exact h.elim
  | text s =>
    simp only [token, shownChar_false]
    exact unescape_character c rest
  | ucs2 s =>
    simp only [token, shownChar_false]
    exact unescape_ucs2 (h c hc) rest

theorem token_head (bar : Bool) (n : Name) (c : Nat) : ∃ x xs, token bar n c = x :: xs ∧ x ≠ 0x2f ∧ x ≠ 0x3a := by
  rcases token_cases bar n c with ⟨h1, -⟩ | h1
  · exact ⟨_, _, h1, by decide, by decide⟩
  rw [h1]
  have hc : ∃ x xs, Display.character c = x :: xs ∧ x ≠ 0x2f ∧ x ≠ 0x3a := by
    unfold Display.character Display.translate
    split
    · exact ⟨_, _, rfl, by decide, by decide⟩
    split
    · exact ⟨_, _, rfl, by decide, by decide⟩
    split
    · exact ⟨_, _, rfl, by decide, by decide⟩
    split
    · exact ⟨_, _, rfl, by decide, by decide⟩
    split
    · exact ⟨_, _, rfl, by decide, by decide⟩
    split
    · exact ⟨_, _, rfl, by decide, by decide⟩
    split
    · exact ⟨_, _, rfl, by decide, by decide⟩
    · exact ⟨_, _, rfl, by omega, by omega⟩
  rw [← shownChar_false] at hc
  cases n with
  | byte s =>
    simp only [token]
    split
    · exact hc
    · exact ⟨_, _, rfl, by decide, by decide⟩
  | os => exact hc
  | text s => exact hc
  | ucs2 s =>
    simp only [token]
    split
    · exact hc
    · exact ⟨_, _, rfl, by decide, by decide⟩

/-- What can come after a name: nothing, a slash or a colon. -/
def Stops (l : List Nat) : Prop := l = [] ∨ ∃ x xs, l = x :: xs ∧ (x = 0x2f ∨ x = 0x3a)

theorem token_stops {bar : Bool} {n : Name} {c : Nat} {rest l : List Nat} (h : Stops l) : token bar n c ++ rest ≠ l := by
  obtain ⟨x, xs, h1, h2, h3⟩ := token_head bar n c
  rw [h1]
  rcases h with rfl | ⟨y, ys, rfl, hy⟩
  · simp
  · intro e
    simp only [List.cons_append, List.cons.injEq] at e
    omega

/-- A name ends where a slash or a colon is. -/
theorem names_split (bar : Bool) (n m : Name) (s t X Y : List Nat) (hX : Stops X) (hY : Stops Y)
    (hs : ∀ c ∈ s, ∀ rest, unescape (token bar n c ++ rest) = some (c, rest)) (ht : ∀ c ∈ t, ∀ rest, unescape (token bar m c ++ rest) = some (c, rest))
    (h : s.flatMap (token bar n) ++ X = t.flatMap (token bar m) ++ Y) : s = t ∧ X = Y := by
  induction s generalizing t with
  | nil =>
    cases t with
    | nil => exact ⟨rfl, by simpa using h⟩
    | cons d t =>
      rw [List.flatMap_nil, List.nil_append, List.flatMap_cons, List.append_assoc] at h
      exact absurd h.symm (token_stops hX)
  | cons a s ih =>
    cases t with
    | nil =>
      rw [List.flatMap_nil, List.nil_append, List.flatMap_cons, List.append_assoc] at h
      exact absurd h (token_stops hY)
    | cons d t =>
      rw [List.flatMap_cons, List.flatMap_cons, List.append_assoc, List.append_assoc] at h
      have h1 := hs a (by simp) (s.flatMap (token bar n) ++ X)
      rw [h, ht d (by simp)] at h1
      simp only [Option.some.injEq, Prod.mk.injEq] at h1
      obtain ⟨rfl, h1⟩ := h1
      obtain ⟨h2, h3⟩ := ih t (fun x hx => hs x (List.mem_cons_of_mem _ hx)) (fun x hx => ht x (List.mem_cons_of_mem _ hx)) h1.symm
      exact ⟨by rw [h2], h3⟩

theorem shown_split {bar : Bool} {n m : Name} (hn : CanShow n) (hm : CanShow m) {X Y : List Nat} (hX : Stops X) (hY : Stops Y)
    (h : shownName bar n ++ X = shownName bar m ++ Y) : nameChars n = nameChars m ∧ X = Y := by
  rw [shown_tokens, shown_tokens] at h
  exact names_split bar n m _ _ X Y hX hY (token_unescape bar hn) (token_unescape bar hm) h

/-- The name of a data stream after its path. -/
def suffix (bar : Bool) : Option Name → List Nat
  | none => []
  | some n => 0x3a :: shownName bar n

theorem suffix_inj {bar : Bool} {x y : Option Name} (hx : ∀ n, x = some n → CanShow n) (hy : ∀ n, y = some n → CanShow n) (h : suffix bar x = suffix bar y) :
    x.map nameChars = y.map nameChars := by
  cases x with
  | none => cases y with
    | none => rfl
    | some m => simp [suffix] at h
  | some n => cases y with
    | none => simp [suffix] at h
    | some m =>
      simp only [suffix, List.cons.injEq, true_and] at h
      have := (shown_split (hx n rfl) (hy m rfl) (X := []) (Y := []) (.inl rfl) (.inl rfl) (by simpa using h)).1
      simp [this]

theorem suffix_stops (bar : Bool) (x : Option Name) : Stops (suffix bar x) := by
  cases x with
  | none => exact .inl rfl
  | some n => exact .inr ⟨_, _, rfl, .inr rfl⟩

theorem suffix_slash (bar : Bool) (x : Option Name) (l : List Nat) : suffix bar x ≠ 0x2f :: l := by
  cases x with
  | none => simp [suffix]
  | some n => simp [suffix]

theorem path_stops (bar : Bool) (names : List Name) (x : Option Name) : Stops (names.flatMap (fun n => 0x2f :: shownName bar n) ++ suffix bar x) := by
  cases names with
  | nil => exact suffix_stops bar x
  | cons n names => exact .inr ⟨_, _, rfl, .inl rfl⟩

theorem paths_split {bar : Bool} {names names' : List Name} {x y : Option Name} (hn : ∀ n ∈ names, CanShow n) (hn' : ∀ n ∈ names', CanShow n)
    (h : names.flatMap (fun n => 0x2f :: shownName bar n) ++ suffix bar x = names'.flatMap (fun n => 0x2f :: shownName bar n) ++ suffix bar y) :
    names.map nameChars = names'.map nameChars ∧ suffix bar x = suffix bar y := by
  induction names generalizing names' with
  | nil =>
    cases names' with
    | nil => exact ⟨rfl, by simpa using h⟩
    | cons m names' => exact absurd h (by simpa using suffix_slash bar x _)
  | cons n names ih =>
    cases names' with
    | nil => exact absurd h.symm (by simpa using suffix_slash bar y _)
    | cons m names' =>
      simp only [List.flatMap_cons, List.cons_append, List.append_assoc, List.cons.injEq, true_and] at h
      obtain ⟨h1, h2⟩ := shown_split (hn n (by simp)) (hn' m (by simp)) (path_stops bar names x) (path_stops bar names' y) h
      obtain ⟨h3, h4⟩ := ih (fun a ha => hn a (List.mem_cons_of_mem _ ha)) (fun a ha => hn' a (List.mem_cons_of_mem _ ha)) h2
      exact ⟨by simp [h1, h3], h4⟩

theorem shownStream_eq (bar : Bool) (names : List Name) (x : Option Name) : shownStream bar names x = shownPath bar names ++ suffix bar x := by
  cases x <;> rfl

/-- A name that is not empty is shown as something that does not begin with a slash or a colon. -/
theorem shown_head {bar : Bool} {n : Name} (h : nameChars n ≠ []) : ∃ y ys, shownName bar n = y :: ys ∧ y ≠ 0x2f ∧ y ≠ 0x3a := by
  rw [shown_tokens]
  cases hc : nameChars n with
  | nil => exact absurd hc h
  | cons c cs =>
    obtain ⟨y, ys, h1, h2⟩ := token_head bar n c
    exact ⟨y, ys ++ cs.flatMap (token bar n), by simp [h1], h2⟩

theorem root_apart {bar : Bool} {names : List Name} (hn : ∀ n ∈ names, nameChars n ≠ []) (hne : names ≠ []) (x y : Option Name) :
    shownStream bar names x ≠ shownStream bar [] y := by
  cases names with
  | nil => exact absurd rfl hne
  | cons n names =>
    obtain ⟨c, cs, h1, h2, h3⟩ := shown_head (bar := bar) (hn n (by simp))
    rw [shownStream_eq, shownStream_eq]
    intro h
    simp only [shownPath, reduceCtorEq, if_false, if_true, List.flatMap_cons, h1, List.cons_append, List.nil_append, List.cons.injEq, true_and] at h
    cases y with
    | none => simp [suffix] at h
    | some m =>
      simp only [suffix, List.cons.injEq] at h
      exact h3 h.1

/-- C76: the paths in the lines, and those in which vertical bars are escaped, tell the data streams of a volume apart: the same text is the same names of the file entries on the
way and the same name of the data stream, character by character. Names are not empty. -/
theorem C76_unambiguous (bar : Bool) (names names' : List Name) (x y : Option Name) (hn : ∀ n ∈ names, CanShow n ∧ nameChars n ≠ [])
    (hn' : ∀ n ∈ names', CanShow n ∧ nameChars n ≠ []) (hx : ∀ n, x = some n → CanShow n) (hy : ∀ n, y = some n → CanShow n)
    (h : shownStream bar names x = shownStream bar names' y) : names.map nameChars = names'.map nameChars ∧ x.map nameChars = y.map nameChars := by
  by_cases h1 : names = []
  · subst h1
    by_cases h2 : names' = []
    · subst h2
      rw [shownStream_eq, shownStream_eq, List.append_cancel_left_eq] at h
      exact ⟨rfl, suffix_inj hx hy h⟩
    · exact absurd h.symm (root_apart (fun n hm => (hn' n hm).2) h2 y x)
  · by_cases h2 : names' = []
    · subst h2
      exact absurd h (root_apart (fun n hm => (hn n hm).2) h1 x y)
    · rw [shownStream_eq, shownStream_eq, shownPath, shownPath, if_neg h1, if_neg h2] at h
      obtain ⟨h3, h4⟩ := paths_split (fun n hm => (hn n hm).1) (fun n hm => (hn' n hm).1) h
      exact ⟨h3, suffix_inj hx hy h4⟩

theorem shownStream_slash (bar : Bool) (names : List Name) (x : Option Name) : ∃ l, shownStream bar names x = 0x2f :: l := by
  rw [shownStream_eq]
  unfold shownPath
  cases names with
  | nil => exact ⟨_, rfl⟩
  | cons n names => exact ⟨_, by rw [if_neg (by simp)]; rfl⟩

theorem until_slash (a b : List Nat) (X Y : List Nat) (ha : 0x2f ∉ a) (hb : 0x2f ∉ b) (h : a ++ 0x2f :: X = b ++ 0x2f :: Y) : a = b ∧ X = Y := by
  induction a generalizing b with
  | nil =>
    cases b with
    | nil => exact ⟨rfl, by simpa using h⟩
    | cons c b =>
      simp only [List.nil_append, List.cons_append, List.cons.injEq] at h
      exact absurd (h.1 ▸ List.mem_cons_self) hb
  | cons c a ih =>
    cases b with
    | nil =>
      simp only [List.nil_append, List.cons_append, List.cons.injEq] at h
      exact absurd (h.1 ▸ List.mem_cons_self) ha
    | cons d b =>
      simp only [List.cons_append, List.cons.injEq] at h
      obtain ⟨h1, h2⟩ := ih b (fun hm => ha (List.mem_cons_of_mem _ hm)) (fun hm => hb (List.mem_cons_of_mem _ hm)) h.2
      exact ⟨by rw [h.1, h1], h2⟩

theorem codePoints_inj {n m : Nat} (h : codePoints (toString n) = codePoints (toString m)) : n = m := by
  rw [← VfsScanner.decimal_eq, ← VfsScanner.decimal_eq] at h
  have h1 := (VfsParts.decimal_spec n).1.2.2
  have h2 := (VfsParts.decimal_spec m).1.2.2
  rw [h, h2] at h1
  exact h1.symm

/-- C76: and those of the partitions of a disk. -/
theorem C76_unambiguous_partitions (bar : Bool) (i j : Nat) (names names' : List Name) (x y : Option Name) (hn : ∀ n ∈ names, CanShow n ∧ nameChars n ≠ [])
    (hn' : ∀ n ∈ names', CanShow n ∧ nameChars n ≠ []) (hx : ∀ n, x = some n → CanShow n) (hy : ∀ n, y = some n → CanShow n)
    (h : codePoints "/p" ++ codePoints (toString i) ++ shownStream bar names x = codePoints "/p" ++ codePoints (toString j) ++ shownStream bar names' y) :
    i = j ∧ names.map nameChars = names'.map nameChars ∧ x.map nameChars = y.map nameChars := by
  rw [List.append_assoc, List.append_assoc, List.append_cancel_left_eq] at h
  obtain ⟨l, hl⟩ := shownStream_slash bar names x
  obtain ⟨l', hl'⟩ := shownStream_slash bar names' y
  have h0 := h
  rw [hl, hl'] at h
  obtain ⟨h1, h2⟩ := until_slash _ _ _ _ (fun hm => by have := digits_of i _ hm; omega) (fun hm => by have := digits_of j _ hm; omega) h
  rw [h1, List.append_cancel_left_eq] at h0
  exact ⟨codePoints_inj h1, C76_unambiguous bar names names' x y hn hn' hx hy h0⟩

theorem shown_safe (bar : Bool) {n : Name} (h : CanShow n) : ∀ c ∈ shownName bar n, ¬ isControl c := by
  have hfalse : ∀ c ∈ shownName false n, ¬ isControl c := by
    cases n with
    | byte s =>
      obtain ⟨cs, h1, h2⟩ := h
      have hc : nameChars (.byte s) = cs := by simp only [nameChars, h2, C18_decode_encode cs h1]
      have := ((C51_safe_partial cs).2.2 fun c hm => by have := h1 c hm; unfold Utf8.isScalar at this; omega).1.1
      simp only [shownName, hc, shownChar_false]
      exact this
    | os => exact h.elim
    | text s =>
      simp only [shownName, shownChar_false]
      exact ((C51_safe_partial s).1 h).1.1
    | ucs2 s =>
      simp only [shownName, shownChar_false]
      exact ((C51_safe_partial s).2.1 h).1.1
  intro c hc
  rw [shown_tokens] at hc hfalse
  obtain ⟨x, h1, h2⟩ := List.mem_flatMap.1 hc
  rcases token_cases bar n x with ⟨h3, -⟩ | h3
  · rw [h3] at h2
    simp only [List.mem_cons, List.not_mem_nil, or_false] at h2
    unfold isControl
    omega
  · exact hfalse c (List.mem_flatMap.2 ⟨x, h1, h3 ▸ h2⟩)

/-- C76: a path has no control characters, so that a line is one line and its only tab is that behind the result. -/
theorem C76_one_line (bar : Bool) (i : Nat) (above : List Nat) (ha : above = [] ∨ above = codePoints "/p" ++ codePoints (toString i)) (names : List Name)
    (x : Option Name) (hn : ∀ n ∈ names, CanShow n) (hx : ∀ n, x = some n → CanShow n) : ∀ c ∈ above ++ shownStream bar names x, ¬ isControl c := by
  have hnot : ∀ c : Nat, 0x20 ≤ c → c < 0x7f → ¬ isControl c := fun c h1 h2 => by unfold isControl; omega
  intro c hc
  rw [shownStream_eq, List.mem_append, List.mem_append] at hc
  rcases hc with hc | hc | hc
  · rcases ha with rfl | rfl
    · simp at hc
    · rw [List.mem_append] at hc
      rcases hc with hc | hc
      · have : ∀ c ∈ codePoints "/p", 0x20 ≤ c ∧ c < 0x7f := by decide
        exact hnot c (this c hc).1 (this c hc).2
      · have := digits_of i c hc
        exact hnot c (by omega) (by omega)
  · unfold shownPath at hc
    split at hc
    · simp only [List.mem_singleton] at hc
      exact hnot c (by omega) (by omega)
    · obtain ⟨n, h1, h2⟩ := List.mem_flatMap.1 hc
      rcases List.mem_cons.1 h2 with rfl | h2
      · exact hnot _ (by decide) (by decide)
      · exact shown_safe bar (hn n h1) c h2
  · cases x with
    | none => simp [suffix] at hc
    | some n =>
      rcases List.mem_cons.1 hc with rfl | hc
      · exact hnot _ (by decide) (by decide)
      · exact shown_safe bar (hx n rfl) c hc

/-- C76 does not hold in full: although the tool is not to stop on errors, a file entry that cannot be opened ends it; what the finder
gives behind it is not listed. -/
theorem C76_violated_lost (c : Config E S) (_hstop : c.stop = false) (location : Location ScanPath) (v : HashTool.Volume E S) (root : E) (tree : Spec.Tree E)
    (streams : E → List NamedStream) (h : HoldsFiles c location v root tree streams) (above : List Nat) (hfs : isFileSystem location.type = true)
    (ha : abovePath location = .ok above) (before behind : List (Found E Name)) (hf : tree.found v.toFiles [] = before ++ .error :: behind) :
    ∃ enough, ∀ fuel, enough ≤ fuel → leafLines (walk c) fuel location =
      ((showItems (before.flatMap (foundItems (digestText c.hashType) c.stop above streams))).1, .err) := by
  obtain ⟨n, hn⟩ := leafLines_items c h above hfs ha
  refine ⟨n, fun fuel hfuel => ?_⟩
  rw [hn fuel hfuel, hf, List.flatMap_append]
  have key : ∀ a b : List Item, showItems (a ++ .failure :: b) = ((showItems a).1, .err) := by
    intro a b
    induction a with
    | nil => rfl
    | cons x a ih => cases x <;> simp [showItems, ih]
  exact key _ _

/-- C76 does not hold in full: a file entry with a name that is not valid UTF-8 on its path makes the tool panic, whether or not it has
data streams. -/
theorem C76_violated_name (c : Config E S) (fuel : Nat) (v : HashTool.Volume E S) (above : List Nat) (e : E) (path : List (Option Name)) (s : List Byte)
    (hm : some (.byte s) ∈ path) (hs : ∀ cs, Utf8.decodeAll s ≠ .ok cs) : entryLines c fuel v above e path = ([], .panic) := by
  have hesc : ∀ n, escape Display.character n ≠ .err := by
    intro n
    match n with
    | none => simp [escape]
    | some (.byte s) =>
      simp only [escape]
      split <;> simp
    | some .os => simp [escape]
    | some (.text s) => simp [escape]
    | some (.ucs2 s) => simp [escape]
  have hp : escape Display.character (some (.byte s)) = .panic := by
    simp only [escape]
  have hmap : path.mapM (escape Display.character) = .panic := by
    induction path with
    | nil => simp at hm
    | cons n path ih =>
      rw [List.mapM_cons]
      cases hn : escape Display.character n with
      | ok t =>
        rw [R.ok_bind]
        rcases List.mem_cons.1 hm with h | h
        · rw [← h, hp] at hn
          cases hn
        · rw [ih h]
          rfl
      | err => exact absurd hn (hesc n)
      | panic => rfl
  have hs0 : s ≠ [] := by
    rintro rfl
    exact hs [] (C18_decode_encode [] (by simp))
  have hempty : ¬ (path.length = 1 ∧ path.all isEmpty = true) := by
    rintro ⟨-, h⟩
    have := List.all_eq_true.1 h _ hm
    simp only [isEmpty, List.isEmpty_iff] at this
    exact hs0 this
  simp only [entryLines, joinNames]
  rw [if_neg hempty, hmap]
  rfl

namespace HashToolExample

/-- A volume with the file entries `/`, `/a` and `/a/b`; `/a` has two data streams, of which the one with the name "x" cannot be opened.
A data stream is what is still to be read of it. The file entry `/` has another sub file entry that cannot be opened if `lost`. -/
def files (lost : Bool) : HashTool.Volume Nat (List Byte) where
  root := .ok (some 1)
  number := fun e => if e = 1 then .ok (if lost then 2 else 1) else if e = 2 then .ok 1 else .ok 0
  name := fun e => if e = 1 then none else if e = 2 then some (.ucs2 [0x61]) else some (.text [0x62])
  sub := fun e i => if i = 0 then .ok (e + 1) else .err
  forks := fun e => if e = 2 then .ok 2 else .ok 0
  fork := fun _ i => if i = 0 then .ok ⟨none, .ok [1, 2, 3]⟩ else .ok ⟨some (.ucs2 [0x78]), .err⟩

def config (lost : Bool) : Config Nat (List Byte) := ⟨fun s n => .ok (s.take n, s.drop n), fun _ => .ok (files lost), .sha256, false⟩

def streams : Nat → List NamedStream
  | 2 => [⟨none, some [1, 2, 3]⟩, ⟨some (.ucs2 [0x78]), none⟩]
  | _ => []

def tree (lost : Bool) : Spec.Tree Nat :=
  .node 1 (.opened (.node 2 (.opened (.node 3 .nil) .nil)) (if lost then .lost .nil else .nil))

theorem found (lost : Bool) : (tree lost).found (files lost).toFiles [] =
    [.entry 3 [none, some (.ucs2 [0x61]), some (.text [0x62])], .entry 2 [none, some (.ucs2 [0x61])]] ++ (if lost then [.error] else []) ++
      [.entry 1 [none]] := by
  cases lost <;> rfl

theorem holds (lost : Bool) (location : Location ScanPath) : HoldsFiles (config lost) location (files lost) 1 (tree lost) streams where
  opens := rfl
  hasRoot := rfl
  below := by
    cases lost
    · exact ⟨rfl, rfl, ⟨2, rfl, rfl, rfl, ⟨3, rfl, rfl, rfl, trivial⟩, trivial⟩, trivial⟩
    · exact ⟨rfl, rfl, ⟨2, rfl, rfl, rfl, ⟨3, rfl, rfl, rfl, trivial⟩, trivial⟩, .inl rfl, trivial⟩
  rootName := rfl
  names := by
    intro e path h n hn
    have hpath : path ∈ [[none, some (Name.ucs2 [0x61]), some (.text [0x62])], [none, some (.ucs2 [0x61])], [none]] := by
      rw [found] at h
      cases lost <;> simp at h <;> rcases h with h | h | h <;> simp [h.2]
    simp only [List.mem_cons, List.not_mem_nil, or_false] at hpath
    rcases hpath with rfl | rfl | rfl <;> simp at hn
    · rcases hn with rfl | rfl
      · exact ⟨_, rfl, by simp [CanShow]⟩
      · exact ⟨_, rfl, by simp [CanShow]⟩
    · subst hn
      exact ⟨_, rfl, by simp [CanShow]⟩
  number := by
    intro e path h
    have he : e = 3 ∨ e = 2 ∨ e = 1 := by
      rw [found] at h
      cases lost <;> simp at h <;> rcases h with h | h | h <;> simp [h.1]
    rcases he with rfl | rfl | rfl <;> rfl
  forks := by
    intro e path h i hi
    have he : e = 3 ∨ e = 2 ∨ e = 1 := by
      rw [found] at h
      cases lost <;> simp at h <;> rcases h with h | h | h <;> simp [h.1]
    rcases he with rfl | rfl | rfl
    · simp [streams] at hi
    · match i, hi with
      | 0, _ =>
        refine ⟨fun n hn => by simp [streams] at hn, _, rfl, rfl, by decide, [1, 2, 3], fun s p => s = [1, 2, 3].drop p, rfl, rfl, ?_⟩
        intro s p n hs
        refine ⟨s.take n, s.drop n, rfl, ?_, ?_⟩
        · subst hs
          unfold readOk
          split
          · refine ⟨?_, ?_, by simp⟩
            · simp
            · intro h1 h2
              rw [Int.toNat_natCast] at h2
              simp only [ne_eq, List.take_eq_nil_iff, List.drop_eq_nil_iff, not_or]
              omega
          · rw [List.drop_eq_nil_of_le (by omega), List.take_nil]
        · subst hs
          rw [List.drop_drop, List.length_take, List.length_drop]
          rcases Nat.le_total n (([1, 2, 3] : List Byte).length - p) with h | h
          · rw [Nat.min_eq_left h]
          · rw [Nat.min_eq_right h, List.drop_eq_nil_of_le (by omega), List.drop_eq_nil_of_le (by omega)]
      | 1, _ =>
        refine ⟨fun n hn => ?_, _, rfl, rfl, .inl rfl⟩
        simp only [streams, List.getElem_cons_succ, List.getElem_cons_zero, Option.some.injEq] at hn
        subst hn
        simp [CanShow]
    · simp [streams] at hi

/-- The image of `VfsScannerExample.world`, whose partitions 1 and 2 each have such a volume: its four lines. -/
example : ∃ node, VfsScanner.scan VfsScannerExample.world (0 + 4) (.base (.os [0x61]) .os) = .ok node ∧
    ∃ enough, ∀ fuel, enough ≤ fuel → toolLines (config false) fuel [0x61] .err node =
      ([digestText .sha256 [1, 2, 3] ++ [0x09] ++ codePoints "/p1/a", codePoints "N/A (error)" ++ [0x09] ++ codePoints "/p1/a:x",
        digestText .sha256 [1, 2, 3] ++ [0x09] ++ codePoints "/p2/a", codePoints "N/A (error)" ++ [0x09] ++ codePoints "/p2/a:x"], .ok ()) := by
  have hw : HoldsContent VfsScannerExample.world [0x61] 0 VfsScannerExample.content := by
    refine ⟨by decide +kernel, VfsParts.ofLayers .qcow [1, 2], 2, rfl, rfl, rfl, by decide, by decide, ?_, rfl, ?_⟩
    · rintro (h | h | h) <;> cases h
    · refine ⟨.inl ⟨.inr rfl, by decide +kernel⟩, by decide, VfsParts.ofLayers .gpt [3, 4, 5], rfl, rfl, rfl, ?_⟩
      intro i hi
      match i, hi with
      | 0, _ => exact ⟨3, rfl, by show VfsScannerExample.world.scan _ _ = _; decide +kernel⟩
      | 1, _ => exact ⟨4, rfl, by show VfsScannerExample.world.scan _ _ = _; decide +kernel⟩
      | 2, _ => exact ⟨5, rfl, by show VfsScannerExample.world.scan _ _ = _; decide +kernel⟩
  obtain ⟨node, h1, n, h2⟩ := C76_listing_partial VfsScannerExample.world 0 [0x61] 0 VfsScannerExample.content rfl hw
    (by intro k n x h; cases h; exact .inr (.inl rfl)) (by simp [VfsScannerExample.content, Content.nodes]) (config false) .err (fun _ => files false) (fun _ => 1) (fun _ => tree false) (fun _ => streams)
    (fun _ location _ => holds false location)
  refine ⟨node, h1, n, fun fuel hf => ?_⟩
  rw [h2 fuel hf]
  rfl

/-- The same volume with a file entry that cannot be opened: the root directory is not listed any more. -/
example : ∃ enough, ∀ fuel, enough ≤ fuel → leafLines (walk (config true)) fuel (.layer (.vfs (.ntfs [[]])) (.base (.os [0x61]) .os) .ntfs) =
    ([digestText .sha256 [1, 2, 3] ++ [0x09] ++ codePoints "/a", codePoints "N/A (error)" ++ [0x09] ++ codePoints "/a:x"], .err) :=
  C76_violated_lost (config true) rfl _ _ _ _ _ (holds true _) [] rfl rfl
    [.entry 3 [none, some (.ucs2 [0x61]), some (.text [0x62])], .entry 2 [none, some (.ucs2 [0x61])]] [.entry 1 [none]] (found true)

/-- A file in which nothing is found. -/
example : toolLines (config false) (2 ^ 61) [0x61] (.ok [1, 2, 3]) (.node (.base (.os [0x61]) .os) []) =
    ([digestText .sha256 [1, 2, 3] ++ codePoints "  " ++ [0x61]], .ok ()) := by
  have h := (holds false (.base (.os [0x61]) .os)).forks 2 [none, some (.ucs2 [0x61])] (by rw [found]; simp) 0 (by decide)
  obtain ⟨-, f, hf, hs⟩ := h
  cases hf
  exact C76_file (config false) [0x61] [1, 2, 3] ⟨none, some [1, 2, 3]⟩ hs _ _ (Nat.le_refl _)

/-- A name that is not valid UTF-8. -/
example : entryLines (config false) 1 (files false) [] 1 [none, some (.byte [0xff])] = ([], .panic) :=
  C76_violated_name _ _ _ _ _ _ [0xff] (by simp) (by
    intro cs h
    have : Utf8.decodeAll [0xff] = .err := by decide +kernel
    rw [this] at h
    cases h)

/-- Two names of which the escaped forms are close. -/
example : shownStream false [.ucs2 [0x61, 0x3a, 0x62]] none ≠ shownStream false [.ucs2 [0x61]] (some (.ucs2 [0x62])) := by
  intro h
  have := C76_unambiguous _ _ _ _ _ (by simp [CanShow, nameChars]) (by simp [CanShow, nameChars]) (by simp) (by simp [CanShow]) h
  simp [nameChars] at this

end HashToolExample

end Keramics.Props
