import Verif.Base.Tactics
import Verif.Model.Vfs
import Verif.Spec.Vfs
import Verif.Props.Utf8

/-!
# C49, C50: VFS paths and the VFS context
-/

namespace Keramics.Props
open Keramics.Path Keramics.Vfs Keramics.Spec

/-! ## C49 -/

private theorem parent_push {α} {p : List α} (h : p ≠ []) (x : α) : Path.parent (p ++ [x]) = p := by
  have : 0 < p.length := List.length_pos_iff.2 h
  unfold Path.parent
  rw [if_pos (by simp; omega), List.length_append, List.length_singleton, Nat.add_sub_cancel, List.take_left]

private theorem fileName_push {α} {p : List α} (h : p ≠ []) (x : α) : Path.fileName (p ++ [x]) = some x := by
  have : 0 < p.length := List.length_pos_iff.2 h
  unfold Path.fileName
  rw [if_pos (by simp; omega), List.length_append, List.length_singleton, Nat.add_sub_cancel, List.getElem?_append_right (Nat.le_refl _),
    Nat.sub_self]
  rfl

/-- C49: joining a component and taking the parent returns the path. Missing: a path without components, for which this does
not hold (`C49_violated_empty`). -/
theorem C49_parent_partial (p q : VfsPath) (c : Component) (hp : p ≠ .ext [] ∧ p ≠ .fat [] ∧ p ≠ .ntfs [] ∧ p ≠ .string [])
    (h : p.join [c] = .ok q) : q.parent = p := by
  obtain ⟨h1, h2, h3, h4⟩ := hp
  cases p with
  | ext p =>
    obtain ⟨l, hl, hq⟩ := R.bind_eq_ok.1 h
    obtain ⟨x, -, hx⟩ := R.bind_eq_ok.1 hl
    cases hx; cases hq
    exact congrArg VfsPath.ext (parent_push (by simpa using h1) x)
  | fat p =>
    obtain ⟨l, hl, hq⟩ := R.bind_eq_ok.1 h
    obtain ⟨x, -, hx⟩ := R.bind_eq_ok.1 hl
    cases hx; cases hq
    exact congrArg VfsPath.fat (parent_push (by simpa using h2) x)
  | ntfs p =>
    obtain ⟨l, hl, hq⟩ := R.bind_eq_ok.1 h
    obtain ⟨x, -, hx⟩ := R.bind_eq_ok.1 hl
    cases hx; cases hq
    exact congrArg VfsPath.ntfs (parent_push (by simpa using h3) x)
  | string p =>
    obtain ⟨l, hl, hq⟩ := R.bind_eq_ok.1 h
    obtain ⟨x, -, hx⟩ := R.bind_eq_ok.1 hl
    cases hx; cases hq
    exact congrArg VfsPath.string (parent_push (by simpa using h4) x)

private theorem elements_self {s : List Byte} (h : 0#8 ∉ s) : ByteString.elements s = s := by
  unfold ByteString.elements
  rw [List.findIdx?_eq_none_iff.2]
  intro x hx
  have : x ≠ 0#8 := fun e => h (e ▸ hx)
  simpa using this

private theorem encode_ne_zero {c : Nat} (h : c ≠ 0) (hc : c < 0x110000) : 0#8 ∉ Utf8.encode c := by
  have key : ∀ n, n < 256 → n ≠ 0 → BitVec.ofNat 8 n ≠ 0#8 := by
    intro n h1 h2 h3
    have := congrArg BitVec.toNat h3
    rw [BitVec.toNat_ofNat] at this
    simp at this
    omega
  unfold Utf8.encode
  intro hm
  obtain ⟨n, hn, e⟩ := List.mem_map.1 hm
  refine key n ?_ ?_ e
  all_goals
    split at hn
    · simp at hn; omega
    split at hn
    · simp at hn; omega
    split at hn
    · simp at hn; omega
    · simp at hn; omega

private theorem bytesOf_eq {t : List Nat} (h0 : 0 ∉ t) (ht : ∀ c ∈ t, Utf8.isScalar c) : bytesOf t = t.flatMap Utf8.encode := by
  show ByteString.elements (t.flatMap Utf8.encode) = _
  refine elements_self fun hm => ?_
  obtain ⟨c, hc, hb⟩ := List.mem_flatMap.1 hm
  refine encode_ne_zero (fun e => h0 (e ▸ hc)) ?_ hb
  have := ht c hc
  unfold Utf8.isScalar at this
  omega

/-- C49: the file name of a joined path is the component: the component itself, or its text in the form of the file system. -/
theorem C49_file_name (p q : VfsPath) (c : Component) (hp : p ≠ .ext [] ∧ p ≠ .fat [] ∧ p ≠ .ntfs [] ∧ p ≠ .string [])
    (hc : ∀ t, c = .text t → 0 ∉ t ∧ ∀ x ∈ t, Utf8.isScalar x) (h : p.join [c] = .ok q) :
    ∃ d, q.fileName = some d ∧ SameName d c := by
  obtain ⟨h1, h2, h3, h4⟩ := hp
  cases p with
  | ext p =>
    obtain ⟨l, hl, hq⟩ := R.bind_eq_ok.1 h
    obtain ⟨x, hx, hxl⟩ := R.bind_eq_ok.1 hl
    cases hxl; cases hq
    refine ⟨.bytes x, by show Option.map _ _ = _; rw [fileName_push (by simpa using h1) x]; rfl, ?_⟩
    cases c with
    | bytes s => cases hx; exact .same _
    | text t => cases hx; rw [bytesOf_eq (hc t rfl).1 (hc t rfl).2]; exact .utf8 t
    | ucs2 s => cases hx
  | fat p =>
    obtain ⟨l, hl, hq⟩ := R.bind_eq_ok.1 h
    obtain ⟨x, hx, hxl⟩ := R.bind_eq_ok.1 hl
    cases hxl; cases hq
    refine ⟨fatName x, by show Option.map _ _ = _; rw [fileName_push (by simpa using h2) x]; rfl, ?_⟩
    cases c with
    | bytes s => cases hx; exact .same _
    | text t => cases hx; exact .utf16 t
    | ucs2 s => cases hx; exact .same _
  | ntfs p =>
    obtain ⟨l, hl, hq⟩ := R.bind_eq_ok.1 h
    obtain ⟨x, hx, hxl⟩ := R.bind_eq_ok.1 hl
    cases hxl; cases hq
    refine ⟨.ucs2 x, by show Option.map _ _ = _; rw [fileName_push (by simpa using h3) x]; rfl, ?_⟩
    cases c with
    | bytes s => cases hx
    | text t => cases hx; exact .utf16 t
    | ucs2 s => cases hx; exact .same _
  | string p =>
    obtain ⟨l, hl, hq⟩ := R.bind_eq_ok.1 h
    obtain ⟨x, hx, hxl⟩ := R.bind_eq_ok.1 hl
    cases hxl; cases hq
    refine ⟨.text x, by show Option.map _ _ = _; rw [fileName_push (by simpa using h4) x]; rfl, ?_⟩
    cases c with
    | bytes s => cases hx
    | text t => cases hx; exact .same _
    | ucs2 s => cases hx

/-- C49 (several components): joining components and taking as many parents returns the path. -/
theorem C49_parents_partial (p q : VfsPath) (cs : List Component) (hp : p ≠ .ext [] ∧ p ≠ .fat [] ∧ p ≠ .ntfs [] ∧ p ≠ .string [])
    (h : p.join cs = .ok q) : VfsPath.parent^[cs.length] q = p := by
  have gen : ∀ {α} (conv : Component → R α) (cs : List Component) (l r : List α), l ≠ [] → push conv cs l = .ok r →
      Path.parent^[cs.length] r = l := by
    intro α conv cs
    induction cs with
    | nil => intro l r _ h; cases h; rfl
    | cons c cs ih =>
      intro l r hl h
      obtain ⟨x, -, hx⟩ := R.bind_eq_ok.1 h
      have := ih (l ++ [x]) r (by simp) hx
      rw [List.length_cons, Function.iterate_succ_apply', this, parent_push hl]
  obtain ⟨h1, h2, h3, h4⟩ := hp
  have comm : ∀ {α} (mk : List α → VfsPath), (∀ l, (mk l).parent = mk (Path.parent l)) → ∀ n l, VfsPath.parent^[n] (mk l) = mk (Path.parent^[n] l) := by
    intro α mk hmk n
    induction n with
    | zero => intro l; rfl
    | succ n ih => intro l; rw [Function.iterate_succ_apply, hmk, ih, ← Function.iterate_succ_apply]
  cases p with
  | ext p =>
    obtain ⟨l, hl, hq⟩ := R.bind_eq_ok.1 h
    cases hq
    rw [comm _ (fun _ => rfl), gen _ cs p l (by simpa using h1) hl]
  | fat p =>
    obtain ⟨l, hl, hq⟩ := R.bind_eq_ok.1 h
    cases hq
    rw [comm _ (fun _ => rfl), gen _ cs p l (by simpa using h2) hl]
  | ntfs p =>
    obtain ⟨l, hl, hq⟩ := R.bind_eq_ok.1 h
    cases hq
    rw [comm _ (fun _ => rfl), gen _ cs p l (by simpa using h3) hl]
  | string p =>
    obtain ⟨l, hl, hq⟩ := R.bind_eq_ok.1 h
    cases hq
    rw [comm _ (fun _ => rfl), gen _ cs p l (by simpa using h4) hl]

/-- "/a" joined with "b". -/
example : (VfsPath.string [[], [0x61]]).join [.text [0x62]] = .ok (.string [[], [0x61], [0x62]]) := rfl

/-! ### Text -/

private theorem split_ne_nil (sep : Nat) (s : List Nat) : splitText sep s ≠ [] := by
  cases s with
  | nil => simp [splitText]
  | cons c cs =>
    rw [splitText]
    split
    · simp
    · split <;> simp

private theorem join_cons (sep : Nat) (c : Nat) (x : List Nat) (xs : List (List Nat)) : joinText sep ((c :: x) :: xs) = c :: joinText sep (x :: xs) := by
  cases xs with
  | nil => rfl
  | cons y ys => rfl

private theorem join_split (sep : Nat) (s : List Nat) : joinText sep (splitText sep s) = s := by
  induction s with
  | nil => rfl
  | cons c cs ih =>
    rw [splitText]
    split
    · rename_i h
      obtain ⟨y, ys, hy⟩ := List.exists_cons_of_ne_nil (split_ne_nil sep cs)
      rw [hy] at ih ⊢
      rw [joinText, ih, h]; rfl
    · split
      · rename_i h; exact absurd h (split_ne_nil sep cs)
      · rename_i x xs h
        rw [h] at ih
        rw [join_cons, ih]

private theorem split_append (sep : Nat) (c : List Nat) (hc : sep ∉ c) : splitText sep c = [c] := by
  induction c with
  | nil => rfl
  | cons x xs ih =>
    rw [splitText, if_neg (fun e : x = sep => hc (e ▸ List.mem_cons_self)), ih fun h => hc (List.mem_cons_of_mem _ h)]

private theorem split_append_sep (sep : Nat) (c s : List Nat) (hc : sep ∉ c) : splitText sep (c ++ sep :: s) = c :: splitText sep s := by
  induction c with
  | nil => rw [List.nil_append, splitText, if_pos rfl]
  | cons x xs ih =>
    rw [List.cons_append, splitText, if_neg (fun e : x = sep => hc (e ▸ List.mem_cons_self)), ih fun h => hc (List.mem_cons_of_mem _ h)]

private theorem split_join (sep : Nat) (cs : List (List Nat)) (h0 : cs ≠ []) (h : ∀ c ∈ cs, sep ∉ c) : splitText sep (joinText sep cs) = cs := by
  induction cs with
  | nil => exact absurd rfl h0
  | cons c cs ih =>
    cases cs with
    | nil => exact split_append sep c (h c (by simp))
    | cons d ds =>
      rw [joinText, split_append_sep sep c _ (h c (by simp)), ih (by simp) fun x hx => h x (List.mem_cons_of_mem _ hx)]

private theorem split_mem {sep : Nat} {s c : List Nat} (h : c ∈ splitText sep s) {x : Nat} (hx : x ∈ c) : x ∈ s ∧ x ≠ sep := by
  induction s generalizing c with
  | nil => simp [splitText] at h; subst h; simp at hx
  | cons y ys ih =>
    rw [splitText] at h
    split at h
    · rcases List.mem_cons.1 h with rfl | h
      · simp at hx
      · exact ⟨List.mem_cons_of_mem _ (ih h hx).1, (ih h hx).2⟩
    · rename_i hy
      split at h
      · rename_i he; exact absurd he (split_ne_nil sep ys)
      · rename_i z zs he
        rcases List.mem_cons.1 h with rfl | h
        · rcases List.mem_cons.1 hx with rfl | hx
          · exact ⟨by simp, hy⟩
          · have := ih (c := z) (by rw [he]; simp) hx
            exact ⟨List.mem_cons_of_mem _ this.1, this.2⟩
        · have := ih (c := c) (by rw [he]; exact List.mem_cons_of_mem _ h) hx
          exact ⟨List.mem_cons_of_mem _ this.1, this.2⟩

private theorem mapM_ok {α β} {f : α → R β} {g : α → β} {l : List α} (h : ∀ a ∈ l, f a = .ok (g a)) : l.mapM f = .ok (l.map g) := by
  induction l with
  | nil => rfl
  | cons a l ih =>
    rw [List.mapM_cons, h a (by simp), R.ok_bind, ih fun b hb => h b (List.mem_cons_of_mem _ hb), R.ok_bind]
    rfl

/-- The text of a path whose components have a text. -/
private theorem toText_eq {α} {sep : Nat} {isEmpty : α → Bool} {text : α → R (List Nat)} {g : α → List Nat} {p : List α}
    (h : ∀ a ∈ p, text a = .ok (g a)) (he : ∀ a ∈ p, isEmpty a = (g a).isEmpty) :
    toText sep isEmpty text p = .ok (if p.map g = [[]] then [sep] else joinText sep (p.map g)) := by
  unfold toText
  by_cases hp : p.map g = [[]]
  · rw [if_pos hp, if_pos]
    obtain ⟨a, rfl⟩ : ∃ a, p = [a] := List.length_eq_one_iff.1 (by have := congrArg List.length hp; simpa using this)
    refine ⟨rfl, ?_⟩
    simp only [List.map_cons, List.map_nil, List.cons.injEq, and_true] at hp
    simp [he a (by simp), hp]
  · rw [if_neg hp, if_neg, mapM_ok h, R.ok_bind]
    · rfl
    · rintro ⟨h1, h2⟩
      obtain ⟨a, rfl⟩ := List.length_eq_one_iff.1 h1
      simp [he a (by simp)] at h2
      exact hp (by simp [h2])

/-- Text to components and back. -/
private theorem text_path_text {α} {sep : Nat} {isEmpty : α → Bool} {text : α → R (List Nat)} {of : List Nat → α} {s : List Nat} (hs : s ≠ [])
    (h : ∀ c ∈ splitText sep s, text (of c) = .ok c ∧ isEmpty (of c) = c.isEmpty) (h0 : text (of []) = .ok [] ∧ isEmpty (of []) = true) :
    toText sep isEmpty text (if s = [sep] then [of []] else (splitText sep s).map of) = .ok s := by
  by_cases h1 : s = [sep]
  · rw [if_pos h1, h1]
    unfold toText
    rw [if_pos ⟨rfl, by simp [h0.2]⟩]
  · rw [if_neg h1]
    have hm : ∀ l : List (List Nat), (∀ c ∈ l, text (of c) = .ok c) → (l.map of).mapM text = .ok l := by
      intro l hl
      rw [List.mapM_map]
      have := mapM_ok (f := text ∘ of) (g := id) (l := l) hl
      rw [List.map_id] at this
      exact this
    unfold toText
    rw [if_neg, hm _ (fun c hc => (h c hc).1), R.ok_bind, join_split]
    · rfl
    · rintro ⟨h2, h3⟩
      obtain ⟨c, hc⟩ := List.length_eq_one_iff.1 (by simpa using h2)
      rw [hc] at h3
      have := (h c (by rw [hc]; simp)).2
      simp [this] at h3
      have := join_split sep s
      rw [hc, h3] at this
      exact hs this.symm

/-- Components to text and back. -/
private theorem path_text_path {sep : Nat} {cs : List (List Nat)} (h : ∀ c ∈ cs, sep ∉ c) (h0 : cs ≠ []) (h1 : cs ≠ [[], []]) :
    ∃ t, t = (if cs = [[]] then [sep] else joinText sep cs) ∧ (cs ≠ [[]] → t ≠ [sep]) ∧ (cs = [[]] → t = [sep]) ∧
      (cs ≠ [[]] → splitText sep t = cs) ∧ t ≠ [] := by
  refine ⟨_, rfl, ?_, ?_, ?_, ?_⟩
  · intro hne he
    rw [if_neg hne] at he
    have := split_join sep cs h0 h
    rw [he] at this
    exact h1 (by rw [← this]; simp [splitText])
  · intro e; rw [if_pos e]
  · intro hne; rw [if_neg hne]; exact split_join sep cs h0 h
  · intro he
    by_cases hne : cs = [[]]
    · rw [if_pos hne] at he; cases he
    · rw [if_neg hne] at he
      have := split_join sep cs h0 h
      rw [he] at this
      exact hne (by rw [← this]; rfl)

/-- C49 (text, paths of volume systems and images): parsing a text and printing the path returns the text. Missing: the
empty text, for which it does not hold (`C49_violated_empty_text`). -/
theorem C49_string_text_partial (s : List Nat) (hs : s ≠ []) : (VfsPath.fromText .string s).text = .ok s := by
  have := text_path_text (sep := 0x2f) (isEmpty := List.isEmpty) (text := .ok) (of := id) hs (fun c _ => ⟨rfl, rfl⟩) ⟨rfl, rfl⟩
  rw [List.map_id] at this
  exact this

/-- C49 (text, paths of volume systems and images): printing a path of components without "/" and parsing the text returns
the path. Missing: the paths without components, and of two empty components, for which it does not hold. -/
theorem C49_string_path_partial (cs : List (List Nat)) (h : ∀ c ∈ cs, 0x2f ∉ c) (h0 : cs ≠ []) (h1 : cs ≠ [[], []]) :
    ∃ t, (VfsPath.string cs).text = .ok t ∧ VfsPath.fromText .string t = .string cs := by
  obtain ⟨t, e1, e2, e3, e4, -⟩ := path_text_path h h0 h1
  refine ⟨t, ?_, ?_⟩
  · have := toText_eq (sep := 0x2f) (isEmpty := List.isEmpty) (text := .ok) (g := id) (p := cs) (fun _ _ => rfl) (fun _ _ => rfl)
    rw [List.map_id] at this
    rw [e1]; exact this
  · show VfsPath.string _ = _
    by_cases hne : cs = [[]]
    · rw [if_pos (e3 hne), hne]
    · rw [if_neg (e2 hne), e4 hne]

/-- Characters that a UCS-2 string prints as they are. -/
private def Plain (x : Nat) : Prop := (x < 0xd800 ∨ 0xe000 ≤ x) ∧ x < 0x10000 ∧ x ≠ 0x5c

private theorem ucs2_plain {c : List Nat} (h : ∀ x ∈ c, Plain x) : ucs2Of c = c ∧ ucs2Text c = c := by
  induction c with
  | nil => exact ⟨rfl, rfl⟩
  | cons x c ih =>
    obtain ⟨i1, i2⟩ := ih fun y hy => h y (List.mem_cons_of_mem _ hy)
    obtain ⟨h1, h2, h3⟩ := h x (by simp)
    have hchar : Display.isChar x = true := by unfold Display.isChar; simp; omega
    constructor
    · show utf16 x ++ ucs2Of c = _
      rw [i1, utf16, if_pos h2]; rfl
    · show (if Display.isChar x then _ else _) ++ ucs2Text c = _
      rw [i2, if_pos hchar, if_neg h3]; rfl

/-- C49 (text, NTFS): parsing a text and printing the path returns the text. Missing: characters outside of the Basic
Multilingual Plane, for which it does not hold (`C49_violated_supplementary`). -/
theorem C49_ntfs_text_partial (s : List Nat) (hs : ∀ x ∈ s, (x < 0xd800 ∨ 0xe000 ≤ x) ∧ x < 0x10000) : (VfsPath.fromText .ntfs s).text = .ok s := by
  by_cases h0 : s = []
  · subst h0; rfl
  have hp : ∀ c ∈ splitText 0x5c s, ∀ x ∈ c, Plain x := fun c hc x hx => ⟨(hs x (split_mem hc hx).1).1, (hs x (split_mem hc hx).1).2, (split_mem hc hx).2⟩
  have := text_path_text (sep := 0x5c) (isEmpty := List.isEmpty) (text := fun s => .ok (ucs2Text s)) (of := ucs2Of) h0
    (fun c hc => by obtain ⟨e1, e2⟩ := ucs2_plain (hp c hc); rw [e1, e2]; exact ⟨rfl, rfl⟩) ⟨rfl, rfl⟩
  show toText 0x5c List.isEmpty (fun s => .ok (ucs2Text s)) (if s = [] then [] else if s = [0x5c] then [[]] else (splitText 0x5c s).map ucs2Of) = _
  rw [if_neg h0]; exact this

/-- C49 (text, NTFS): printing a path and parsing the text returns the path. -/
theorem C49_ntfs_path_partial (cs : List (List Nat)) (h : ∀ c ∈ cs, ∀ x ∈ c, (x < 0xd800 ∨ 0xe000 ≤ x) ∧ x < 0x10000 ∧ x ≠ 0x5c) (h1 : cs ≠ [[], []]) :
    ∃ t, (VfsPath.ntfs cs).text = .ok t ∧ VfsPath.fromText .ntfs t = .ntfs cs := by
  by_cases h0 : cs = []
  · subst h0; exact ⟨[], rfl, rfl⟩
  obtain ⟨t, e1, e2, e3, e4, e5⟩ := path_text_path (sep := 0x5c) (fun c hc hm => (h c hc _ hm).2.2 rfl) h0 h1
  refine ⟨t, ?_, ?_⟩
  · have := toText_eq (sep := 0x5c) (isEmpty := List.isEmpty) (text := fun s => .ok (ucs2Text s)) (g := id) (p := cs)
      (fun c hc => by rw [(ucs2_plain (h c hc)).2]; rfl) (fun _ _ => rfl)
    rw [List.map_id] at this
    rw [e1]; exact this
  · show VfsPath.ntfs (if t = [] then _ else _) = _
    rw [if_neg e5]
    by_cases hne : cs = [[]]
    · rw [if_pos (e3 hne), hne]
    · rw [if_neg (e2 hne), e4 hne]
      congr 1
      conv => rhs; rw [← List.map_id cs]
      exact List.map_congr_left fun c hc => (ucs2_plain (h c hc)).1

/-- C49 (text, FAT): parsing a text and printing the path returns the text. Missing: "\\" and characters outside of the
Basic Multilingual Plane, for which it does not hold. -/
theorem C49_fat_text_partial (s : List Nat) (hs : ∀ x ∈ s, (x < 0xd800 ∨ 0xe000 ≤ x) ∧ x < 0x10000 ∧ x ≠ 0x5c) :
    (VfsPath.fromText .fat s).text = .ok s := by
  by_cases h0 : s = []
  · subst h0; rfl
  have hp : ∀ c ∈ splitText 0x2f s, ∀ x ∈ c, Plain x := fun c hc x hx => hs x (split_mem hc hx).1
  have := text_path_text (sep := 0x2f) (isEmpty := FatString.isEmpty) (text := FatString.text) (of := fun c => .ucs2 (ucs2Of c)) h0
    (fun c hc => by
      obtain ⟨e1, e2⟩ := ucs2_plain (hp c hc)
      rw [e1]; exact ⟨by show R.ok (ucs2Text c) = _; rw [e2], rfl⟩) ⟨rfl, rfl⟩
  show toText 0x2f _ _ (if s = [] then [] else if s = [0x2f] then [FatString.ucs2 []] else (splitText 0x2f s).map fun c => FatString.ucs2 (ucs2Of c)) = _
  rw [if_neg h0]; exact this

private theorem bytes_plain {c : List Nat} (h : ∀ x ∈ c, Utf8.isScalar x ∧ x ≠ 0 ∧ x ≠ 0x5c) : bytesText (bytesOf c) = .ok c ∧ (bytesOf c).isEmpty = c.isEmpty := by
  have h1 : bytesOf c = c.flatMap Utf8.encode := bytesOf_eq (fun hm => (h 0 hm).2.1 rfl) (fun x hx => (h x hx).1)
  rw [h1]
  constructor
  · unfold bytesText
    rw [C18_decode_encode c fun x hx => (h x hx).1]
    simp only [R.ok.injEq]
    clear h1
    induction c with
    | nil => rfl
    | cons x c ih =>
      obtain ⟨a, -, b⟩ := h x (by simp)
      have hchar : Display.isChar x = true := by unfold Utf8.isScalar at a; unfold Display.isChar; simp; omega
      rw [List.flatMap_cons, ih fun y hy => h y (List.mem_cons_of_mem _ hy), if_pos hchar, if_neg b]; rfl
  · cases c with
    | nil => rfl
    | cons x c =>
      have : Utf8.encode x ≠ [] := by unfold Utf8.encode; split <;> [simp; split <;> [simp; split <;> simp]]
      obtain ⟨y, ys, hy⟩ := List.exists_cons_of_ne_nil this
      rw [List.flatMap_cons, hy]; rfl

/-- C49 (text, ext): parsing a text and printing the path returns the text. Missing: "\\" and NUL, for which it does not
hold. -/
theorem C49_ext_text_partial (s : List Nat) (hs : ∀ x ∈ s, Utf8.isScalar x ∧ x ≠ 0 ∧ x ≠ 0x5c) : (VfsPath.fromText .ext s).text = .ok s := by
  by_cases h0 : s = []
  · subst h0; rfl
  have := text_path_text (sep := 0x2f) (isEmpty := List.isEmpty) (text := bytesText) (of := bytesOf) h0
    (fun c hc => bytes_plain fun x hx => hs x (split_mem hc hx).1) (bytes_plain (c := []) (by simp))
  show toText 0x2f _ _ (if s = [] then [] else if s = [0x2f] then [[]] else (splitText 0x2f s).map bytesOf) = _
  rw [if_neg h0]; exact this

/-- "/a/b" as a text of the four kinds. -/
example : (VfsPath.fromText .string [0x2f, 0x61, 0x2f, 0x62]) = .string [[], [0x61], [0x62]] ∧
    (VfsPath.fromText .fat [0x2f, 0x61, 0x2f, 0x62]) = .fat [.ucs2 [], .ucs2 [0x61], .ucs2 [0x62]] ∧
    (VfsPath.fromText .ntfs [0x5c, 0x61, 0x5c, 0x62]) = .ntfs [[], [0x61], [0x62]] ∧
    (VfsPath.fromText .ext [0x2f, 0x61, 0x2f, 0x62]) = .ext [[], [0x61#8], [0x62#8]] := by decide +kernel

/-- C49 does not hold for a path without components: the parent of the joined path is not the path. -/
theorem C49_violated_empty : ∃ q, (VfsPath.fromText .fat []).join [.text [0x61]] = .ok q ∧ q.parent ≠ VfsPath.fromText .fat [] ∧ q.fileName = none :=
  ⟨.fat [.ucs2 [0x61]], rfl, by decide, rfl⟩

/-- C49 does not hold for the empty text, which prints as "/". -/
theorem C49_violated_empty_text : (VfsPath.fromText .string []).text = .ok [0x2f] := rfl

/-- C49 does not hold for components that are separator-free but have a character outside of the Basic Multilingual Plane
(NTFS, FAT) or a "\\" (FAT, ext): the text parses into another component. -/
theorem C49_violated_supplementary :
    (VfsPath.fromText .ntfs [0x1f600]).text = .ok ("\\{d83d}\\{de00}".toList.map Char.toNat) ∧
    (VfsPath.fromText .fat [0x61, 0x5c, 0x62]).text = .ok [0x61, 0x5c, 0x5c, 0x62] := by decide +kernel

/-! ## C50 -/

variable {P : Type} [DecidableEq P]

private theorem openNew_source (can : VfsType → Option (FileSystem P) → Location P → Bool) (ctx : Context P) (type : VfsType) (key : Location P)
    (parent : Option (FileSystem P)) (hi : ∀ k fs, ctx k = some fs → source fs = k) :
    (∀ k fs, (openNew can ctx type key parent).1 k = some fs → source fs = k) ∧
      (∀ fs, (openNew can ctx type key parent).2 = some fs → source fs = key) := by
  have hs : source (FileSystem.new type key parent) = key := by cases parent <;> rfl
  unfold openNew
  split
  · refine ⟨fun k fs h => ?_, fun fs h => ?_⟩
    · change (if k = key then _ else _) = _ at h
      split at h
      · rename_i e; cases h; rw [hs, e]
      · exact hi k fs h
    · cases h; exact hs
  · exact ⟨hi, fun fs h => nomatch h⟩

private theorem open_source (os : Location P) (can : VfsType → Option (FileSystem P) → Location P → Bool) (ctx : Context P) (l : Location P)
    (hi : ∀ k fs, ctx k = some fs → source fs = k) :
    (∀ k fs, (openFileSystem os can ctx l).1 k = some fs → source fs = k) ∧
      (∀ fs, (openFileSystem os can ctx l).2 = some fs → source fs = openedFrom os l) := by
  induction l generalizing ctx with
  | base path type =>
    rw [openFileSystem]
    split
    · exact ⟨hi, fun fs h => nomatch h⟩
    · split
      · rename_i fs' h'
        exact ⟨hi, fun fs h => by cases h; exact hi _ _ h'⟩
      · exact openNew_source can ctx type os none hi
  | layer path parent type ih =>
    rw [openFileSystem]
    split
    · exact ⟨hi, fun fs h => nomatch h⟩
    · split
      · rename_i fs' h'
        exact ⟨hi, fun fs h => by cases h; exact hi _ _ h'⟩
      · have := ih ctx hi
        split
        · rename_i c' hc
          rw [hc] at this
          exact ⟨this.1, fun fs h => nomatch h⟩
        · rename_i c' p hc
          rw [hc] at this
          exact openNew_source can c' type parent (some p) this.1

private theorem after_inv (os : Location P) (can : VfsType → Option (FileSystem P) → Location P → Bool) (I : Context P → Prop)
    (history : List (Event P)) (h0 : I fun _ => none) (hopen : ∀ ctx l, .opened l ∈ history → I ctx → I (openFileSystem os can ctx l).1)
    (hdrop : ∀ ctx k, I ctx → I fun l => if l = k then none else ctx l) : I (after os can history) := by
  have gen : ∀ ctx, I ctx → I (history.foldl (step os can) ctx) := by
    induction history with
    | nil => intro ctx h; exact h
    | cons e es ih =>
      intro ctx h
      refine ih (fun ctx l hl => hopen ctx l (List.mem_cons_of_mem _ hl)) (step os can ctx e) ?_
      cases e with
      | opened l => exact hopen ctx l List.mem_cons_self h
      | dropped k => exact hdrop ctx k h
  exact gen _ h0

/-- C50: after any history of opening locations and dropping file systems, a file system is the one opened from the parent of
the location, never from another place. -/
theorem C50_source (os : Location P) (can : VfsType → Option (FileSystem P) → Location P → Bool) (history : List (Event P)) (l : Location P)
    (fs : FileSystem P) (h : (openFileSystem os can (after os can history) l).2 = some fs) : source fs = openedFrom os l := by
  refine (open_source os can _ l ?_).2 fs h
  refine after_inv os can (fun ctx => ∀ k fs, ctx k = some fs → source fs = k) history (fun _ _ h => nomatch h) (fun ctx l _ hi => (open_source os can ctx l hi).1) ?_
  intro ctx k hi k' fs h
  change (if k' = k then _ else _) = _ at h
  split at h
  · cases h
  · exact hi k' fs h

/-- What the context holds when every location is opened with the type that belongs to it. -/
private def Held (os : Location P) (T : Location P → VfsType) (ctx : Context P) : Prop :=
  (∀ fs, ctx os = some fs → fs = .root (T os) os) ∧
    ∀ k fs, k ≠ os → ctx k = some fs → ∃ p, fs = .inside (T k) k p ∧ Backed os k p

private theorem openNew_held {os : Location P} {T : Location P → VfsType} (can : VfsType → Option (FileSystem P) → Location P → Bool) {ctx : Context P}
    (hi : Held os T ctx) (key : Location P) (parent : Option (FileSystem P))
    (hk : (key = os ∧ parent = none) ∨ (key ≠ os ∧ ∃ p, parent = some p ∧ Backed os key p)) :
    Held os T (openNew can ctx (T key) key parent).1 ∧
      (∀ fs, (openNew can ctx (T key) key parent).2 = some fs → fs = FileSystem.new (T key) key parent) := by
  unfold openNew
  split
  · refine ⟨⟨fun fs h => ?_, fun k fs hne h => ?_⟩, fun fs h => by cases h; rfl⟩
    · change (if os = key then _ else _) = _ at h
      split at h
      · rename_i e
        rcases hk with ⟨_, hp⟩ | ⟨hk, _⟩
        · cases h; rw [hp, e]; rfl
        · exact absurd e.symm hk
      · exact hi.1 fs h
    · change (if k = key then _ else _) = _ at h
      split at h
      · rename_i e
        subst e
        rcases hk with ⟨hk, _⟩ | ⟨_, p, hp, hb⟩
        · exact absurd hk hne
        · cases h; rw [hp]; exact ⟨p, rfl, hb⟩
      · exact hi.2 k fs hne h
  · exact ⟨hi, fun fs h => nomatch h⟩

private theorem open_held {os : Location P} {T : Location P → VfsType} (can : VfsType → Option (FileSystem P) → Location P → Bool) (l : Location P)
    (hl : Consistent os T l) {ctx : Context P} (hi : Held os T ctx) :
    Held os T (openFileSystem os can ctx l).1 ∧ (∀ fs, (openFileSystem os can ctx l).2 = some fs → Backed os l fs) := by
  induction l generalizing ctx with
  | base path type =>
    have ht : type = T os := hl
    subst ht
    rw [openFileSystem]
    split
    · exact ⟨hi, fun fs h => nomatch h⟩
    · split
      · rename_i fs' h'
        exact ⟨hi, fun fs h => by cases h; exact hi.1 _ h'⟩
      · exact openNew_held can hi os none (.inl ⟨rfl, rfl⟩)
  | layer path parent type ih =>
    obtain ⟨h1, rfl, h2⟩ := hl
    rw [openFileSystem]
    split
    · exact ⟨hi, fun fs h => nomatch h⟩
    · split
      · rename_i fs' h'
        exact ⟨hi, fun fs h => by cases h; exact hi.2 _ _ h1 h'⟩
      · have := ih h2 hi
        split
        · rename_i c' hc
          rw [hc] at this
          exact ⟨this.1, fun fs h => nomatch h⟩
        · rename_i c' p hc
          rw [hc] at this
          have hn := openNew_held can this.1 parent (some p) (.inr ⟨h1, p, rfl, this.2 p rfl⟩)
          exact ⟨hn.1, fun fs h => ⟨p, hn.2 fs h, this.2 p rfl⟩⟩

/-- C50: if all locations that are opened from the same place are opened with the same type, then after any history of opening
locations and dropping file systems, the file system of a location has its type and backing location, and was opened in the
file system of its parent. Missing: histories that open one place with two types, for which it does not hold
(`C50_violated`). -/
theorem C50_partial (os : Location P) (can : VfsType → Option (FileSystem P) → Location P → Bool) (T : Location P → VfsType) (history : List (Event P))
    (hh : ∀ l, .opened l ∈ history → Consistent os T l) (l : Location P) (hl : Consistent os T l) (fs : FileSystem P)
    (h : (openFileSystem os can (after os can history) l).2 = some fs) : Backed os l fs := by
  refine (open_held can l hl ?_).2 fs h
  refine after_inv os can (Held os T) history ⟨fun _ h => (nomatch h), fun _ _ _ h => nomatch h⟩ (fun ctx l hl hi => (open_held can l (hh l hl) hi).1) ?_
  intro ctx k hi
  refine ⟨fun fs h => ?_, fun k' fs hne h => ?_⟩
  · change (if os = k then _ else _) = _ at h
    split at h
    · cases h
    · exact hi.1 fs h
  · change (if k' = k then _ else _) = _ at h
    split at h
    · cases h
    · exact hi.2 k' fs hne h

/-- A disk image file on the operating system, a partition table in it and a file system in the first partition, opened after
the first was dropped. -/
example : ∃ (T : Location Nat → VfsType) (l : Location Nat) (fs : FileSystem Nat),
    l = .layer 3 (.layer 2 (.layer 1 (.base 7 .os) .qcow) .gpt) .ext ∧
    (∀ x, Event.opened x ∈ [Event.opened l, .dropped (.base 7 .os)] → Consistent (.base 0 .os) T x) ∧
    (openFileSystem (.base 0 .os) (fun _ _ _ => true) (after (.base 0 .os) (fun _ _ _ => true) [.opened l, .dropped (.base 7 .os)]) l).2 = some fs :=
  ⟨fun | .base 0 _ => .os | .base _ _ => .qcow | .layer 1 _ _ => .gpt | _ => .ext, _, _, rfl, by
    intro x hx
    simp at hx
    subst hx
    simp [Consistent], rfl⟩

/-- C50 does not hold for a place that is opened with two types: the second location gets the file system of the first. -/
theorem C50_violated : ∃ (os : Location Nat) (history : List (Event Nat)) (l : Location Nat) (fs : FileSystem Nat),
    (openFileSystem os (fun _ _ _ => true) (after os (fun _ _ _ => true) history) l).2 = some fs ∧ ¬ Backed os l fs :=
  ⟨.base 0 .os, [.opened (.layer 1 (.base 7 .os) .ext)], .layer 1 (.base 7 .os) .fat, .inside .ext (.base 7 .os) (.root .os (.base 0 .os)), rfl, by
    rintro ⟨p, h, -⟩
    cases h⟩

end Keramics.Props
