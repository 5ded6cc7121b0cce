import Verif.Model.FileResolver
import Verif.Spec.FileResolver

/-!
# C90: the other files of an image are looked for in the folder of the image

C91: the file resolvers agree.
-/

namespace Keramics.Props
open Keramics.FileResolver Keramics.Spec.FileResolver

private theorem names_ne90 (a : List Nat) : names a ≠ [] := by
  cases a with
  | nil => simp [names]
  | cons c cs =>
    unfold names
    split
    · simp
    · split <;> simp

private theorem names_slash90 (a b : List Nat) : names (a ++ 0x2f :: b) = names a ++ names b := by
  induction a with
  | nil => simp [names]
  | cons c cs ih =>
    rw [List.cons_append, names, names, ih]
    split
    · simp
    · cases h : names cs with
      | nil => exact absurd h (names_ne90 cs)
      | cons n ns => simp

private theorem names_plain90 (a : List Nat) (h : 0x2f ∉ a) : names a = [a] := by
  induction a with
  | nil => simp [names]
  | cons c cs ih =>
    simp only [List.mem_cons, not_or] at h
    rw [names, ih h.2, if_neg (fun e => h.1 e.symm)]

private theorem go_append90 (s : List (List Nat)) (a b : List (List Nat)) : go s (a ++ b) = go (go s a) b := by
  simp [go]

private theorem go_empty90 (s : List (List Nat)) : go s [[]] = s := by simp [go, step]

private theorem push_place90 (working : List (List Nat)) (path name : List Nat) (h : ¬ Absolute name) :
    place working (push path name) = go (place working path) (names name) := by
  unfold Absolute at h
  unfold push
  rw [if_neg h]
  by_cases he : path = []
  · subst he
    simp [place, h, names, go_empty90]
  have hd : ∀ b, (path ++ b).head? = path.head? := by
    intro b
    cases path with
    | nil => exact absurd rfl he
    | cons c cs => rfl
  by_cases hl : path.getLast? = some 0x2f
  · rw [if_pos (Or.inr hl)]
    obtain ⟨a, rfl⟩ := List.getLast?_eq_some_iff.1 hl
    unfold place
    rw [hd, names_slash90 a []]
    have : a ++ [0x2f] ++ name = a ++ 0x2f :: name := by simp
    rw [this, names_slash90, go_append90, go_append90]
    rw [show names [] = [[]] from rfl, go_empty90]
  · rw [if_neg (by simp [he, hl])]
    unfold place
    rw [hd, names_slash90, go_append90]

/-- **C90**: which file the resolver reads, for every folder and every name: that of an absolute name is the file with that name; that of any
other name is the file that the name leads to from the folder. -/
theorem C90_file {E D : Type} (os : Os E D) (working : List (List Nat)) (folder name : List Nat) :
    ∃ path, getDataStream os folder [.text name] =
        (os.entry path).bind (fun e => match e with | some e => os.data e | none => .ok none) ∧
      (Absolute name → place working path = place working name) ∧
      (¬ Absolute name → place working path = go (place working folder) (names name)) := by
  refine ⟨push folder name, rfl, ?_, push_place90 working folder name⟩
  intro h
  unfold Absolute at h
  simp [push, h]

/-- **C90**, part: if the name of the other file is the name of a file in a folder, the file that is read is the one in the folder of the
image. Missing are names with a slash and "..", see the violations. -/
theorem C90_folder_partial {E D : Type} (os : Os E D) (working : List (List Nat)) (folder name : List Nat) (h : Plain name) :
    ∃ path, getDataStream os folder [.text name] =
        (os.entry path).bind (fun e => match e with | some e => os.data e | none => .ok none) ∧
      place working path = place working folder ++ [name] ∧
      Inside (place working folder) (place working path) := by
  obtain ⟨path, h1, _, h2⟩ := C90_file os working folder name
  have ha : ¬ Absolute name := by
    intro e
    unfold Absolute at e
    cases name with
    | nil => simp at e
    | cons c cs =>
      simp only [List.head?_cons, Option.some.injEq] at e
      exact h.1 (by simp [e])
  have h3 := h2 ha
  rw [names_plain90 name h.1] at h3
  have h4 : place working path = place working folder ++ [name] := by
    rw [h3]
    simp [go, step, h.2.1, h.2.2.1, h.2.2.2]
  exact ⟨path, h1, h4, [name], by simp, h4⟩

/-- **C90**, part: the same for any number of names, such as "bands" and the name of a band: the file is in the folder that the names tell. -/
theorem C90_below_partial {E D : Type} (os : Os E D) (working : List (List Nat)) (folder : List Nat) (ns : List (List Nat))
    (h : ∀ n ∈ ns, Plain n) :
    ∃ path, getDataStream os folder (ns.map .text) =
        (os.entry path).bind (fun e => match e with | some e => os.data e | none => .ok none) ∧
      place working path = place working folder ++ ns := by
  have hj : ∀ (ns : List (List Nat)) (folder : List Nat), (∀ n ∈ ns, Plain n) →
      ∃ path, join folder (ns.map .text) = .ok path ∧ place working path = place working folder ++ ns := by
    intro ns
    induction ns with
    | nil => intro folder _; exact ⟨folder, rfl, by simp⟩
    | cons n ns ih =>
      intro folder h
      obtain ⟨path, h1, h2⟩ := ih (push folder n) (fun m hm => h m (by simp [hm]))
      have hn := h n (by simp)
      have ha : ¬ Absolute n := by
        intro e
        unfold Absolute at e
        cases n with
        | nil => simp at e
        | cons c cs =>
          simp only [List.head?_cons, Option.some.injEq] at e
          exact hn.1 (by simp [e])
      refine ⟨path, h1, ?_⟩
      rw [h2, push_place90 working folder n ha, names_plain90 n hn.1]
      simp [go, step, hn.2.1, hn.2.2.1, hn.2.2.2]
  obtain ⟨path, h1, h2⟩ := hj ns folder h
  exact ⟨path, by unfold getDataStream; rw [h1]; rfl, h2⟩

/-- **C90**, violated: for every folder other than the root and every file, an image that names the file as "../name" gets the file beside
the folder of the image, which is not in that folder. -/
theorem C90_violated_parent {E D : Type} (os : Os E D) (working : List (List Nat)) (folder name : List Nat) (h : Plain name)
    (hf : place working folder ≠ []) :
    ∃ path, getDataStream os folder [.text ([0x2e, 0x2e, 0x2f] ++ name)] =
        (os.entry path).bind (fun e => match e with | some e => os.data e | none => .ok none) ∧
      place working path = (place working folder).dropLast ++ [name] ∧
      ¬ Inside (place working folder) (place working path) := by
  obtain ⟨path, h1, _, h2⟩ := C90_file os working folder ([0x2e, 0x2e, 0x2f] ++ name)
  have h3 := h2 (by simp [Absolute])
  have hn : names ([0x2e, 0x2e, 0x2f] ++ name) = [[0x2e, 0x2e], name] := by
    have := names_slash90 [0x2e, 0x2e] name
    rw [names_plain90 name h.1] at this
    exact this
  rw [hn] at h3
  have h4 : place working path = (place working folder).dropLast ++ [name] := by
    rw [h3]
    simp [go, step, h.2.1, h.2.2.1, h.2.2.2]
  refine ⟨path, h1, h4, ?_⟩
  rintro ⟨rest, hr, e⟩
  have hl := congrArg List.length (h4.symm.trans e)
  have h5 := List.length_pos_of_ne_nil hf
  have h6 := List.length_pos_of_ne_nil hr
  simp only [List.length_append, List.length_dropLast, List.length_cons, List.length_nil] at hl
  omega

/-- **C90**, violated: whatever the folder of the image is, an image that names a file by an absolute path gets the file with that path. -/
theorem C90_violated_absolute {E D : Type} (os : Os E D) (folder name : List Nat) :
    getDataStream os folder [.text (0x2f :: name)] =
      (os.entry (0x2f :: name)).bind (fun e => match e with | some e => os.data e | none => .ok none) := rfl

/-- A name in bytes or UCS-2 strings is refused. -/
theorem C90_components {E D : Type} (os : Os E D) (folder : List Nat) (c : Path.Component) (h : ∀ s, c ≠ .text s) :
    getDataStream os folder [c] = .err := by
  cases c with
  | text s => exact absurd rfl (h s)
  | bytes s => rfl
  | ucs2 s => rfl

private theorem split_names90 (a : List Nat) : Path.splitText 0x2f a = names a := by
  induction a with
  | nil => rfl
  | cons c cs ih =>
    unfold Path.splitText names
    rw [ih]
    split
    · rfl
    · cases names cs <;> rfl

private theorem names_noslash90 (a : List Nat) : ∀ n ∈ names a, 0x2f ∉ n := by
  induction a with
  | nil => simp [names]
  | cons c cs ih =>
    unfold names
    split
    · intro n hn
      rcases List.mem_cons.1 hn with rfl | hn
      · simp
      · exact ih n hn
    · rename_i hc
      cases h : names cs with
      | nil => exact absurd h (names_ne90 cs)
      | cons x xs =>
        rw [h] at ih
        intro n hn
        rcases List.mem_cons.1 hn with rfl | hn
        · have := ih x (by simp)
          simp only [List.mem_cons, not_or]
          exact ⟨fun e => hc e.symm, this⟩
        · exact ih n (by simp [hn])

private theorem names_join90 (ns : List (List Nat)) (h : ∀ n ∈ ns, 0x2f ∉ n) (hne : ns ≠ []) : names (Path.joinText 0x2f ns) = ns := by
  induction ns with
  | nil => exact absurd rfl hne
  | cons n ns ih =>
    cases ns with
    | nil => exact names_plain90 n (h n (by simp))
    | cons m ms =>
      rw [Path.joinText, names_slash90, names_plain90 n (h n (by simp)), ih (fun x hx => h x (by simp [hx])) (by simp)]
      rfl

private theorem go_join90 (s ns : List (List Nat)) (h : ∀ n ∈ ns, 0x2f ∉ n) : go s (names (Path.joinText 0x2f ns)) = go s ns := by
  by_cases hne : ns = []
  · subst hne
    exact go_empty90 s
  · rw [names_join90 ns h hne]

private theorem go_trim90 (s ns : List (List Nat)) : go s (List.rdropWhile skipped ns) = go s ns := by
  induction ns using List.reverseRecOn with
  | nil => simp
  | append_singleton ns n ih =>
    by_cases hn : skipped n = true
    · rw [List.rdropWhile_concat_pos _ _ _ hn, ih, go_append90]
      have : n = [] ∨ n = [0x2e] := by simpa [skipped] using hn
      simp [go, step, this]
    · rw [List.rdropWhile_concat_neg _ _ _ hn]

/-- **C90**: the folder of an image, which the resolver is made for, is the folder that its path tells, for every path with a folder. -/
theorem C90_folder_of_image (working : List (List Nat)) (folder name : List Nat) (hf : folder ≠ []) (h : Plain name) :
    place working (pop (folder ++ 0x2f :: name)) = place working folder := by
  have hs : ¬ skipped name = true := by simp [skipped, h.2.1, h.2.2.1]
  cases folder with
  | nil => exact absurd rfl hf
  | cons c cs =>
  unfold pop
  simp only [split_names90, names_slash90, names_plain90 name h.1, List.cons_append, List.head?_cons, Option.some.injEq]
  have hn : names (c :: (cs ++ 0x2f :: name)) = names (c :: cs) ++ [name] := by
    rw [← names_plain90 name h.1, ← names_slash90]
    simp [names_plain90 name h.1]
  rw [hn]
  by_cases hc : c = 0x2f
  · subst hc
    have h1 : names (0x2f :: cs) = [] :: names cs := by simp [names]
    simp only [h1, if_true, List.cons_append, List.tail_cons, List.nil_append, List.rdropWhile_concat_neg _ _ _ hs]
    rw [if_neg (by simp), List.dropLast_concat]
    unfold place
    simp only [List.cons_append, List.nil_append, List.head?_cons, if_true]
    rw [h1, show names (0x2f :: Path.joinText 0x2f (List.rdropWhile skipped (names cs))) = [] :: names (Path.joinText 0x2f (List.rdropWhile skipped (names cs))) by simp [names]]
    have hg : ∀ x, go [] ([] :: x) = go [] x := fun x => by simp [go, step]
    rw [hg, hg, go_join90 _ _ (fun n hn => names_noslash90 cs n ((List.rdropWhile_prefix _ _).subset hn)), go_trim90]
  · simp only [hc, if_false, List.rdropWhile_concat_neg _ _ _ hs]
    rw [if_neg (by simp), List.dropLast_concat]
    have hhead : (Path.joinText 0x2f (List.rdropWhile skipped (names (c :: cs)))).head? ≠ some 0x2f := by
      obtain ⟨t, ht⟩ := List.rdropWhile_prefix skipped (names (c :: cs))
      have h2 : ∃ n ns, names (c :: cs) = (c :: n) :: ns := by
        unfold names
        rw [if_neg hc]
        cases names cs with
        | nil => exact ⟨_, _, rfl⟩
        | cons n ns => exact ⟨_, _, rfl⟩
      obtain ⟨n, ns, h2⟩ := h2
      rw [h2] at ht ⊢
      cases hr : List.rdropWhile skipped ((c :: n) :: ns) with
      | nil => simp [Path.joinText]
      | cons x xs =>
        rw [hr] at ht
        have hx : x = c :: n := by simpa using congrArg List.head? ht
        subst hx
        cases xs with
        | nil => simp [Path.joinText, hc]
        | cons y ys => simp [Path.joinText, hc]
    unfold place
    rw [List.nil_append, if_neg hhead, if_neg (by simpa using hc),
      go_join90 _ _ (fun n hn => names_noslash90 (c :: cs) n ((List.rdropWhile_prefix _ _).subset hn)), go_trim90]

/-- The folder of "/i/b" is "/i", that of "i//b" is "i". -/
example : Plain [0x62] ∧ pop [0x2f, 0x69, 0x2f, 0x62] = [0x2f, 0x69] ∧ pop [0x69, 0x2f, 0x2f, 0x62] = [0x69] ∧ pop [0x2f, 0x62] = [0x2f] := by
  refine ⟨by simp [Plain], by decide, by decide, by decide⟩

/-- What the resolver of a file system gives for what is at a path. -/
private def look91 {D : Type} : Option (Node D) → R (Option D)
  | some (.file d) => .ok (some d)
  | some .other => .ok none
  | none => .ok none

private theorem vfs91 {D : Type} (tree : List Nat → Option (Node D)) (folder path : List Nat) (components : List Path.Component)
    (h : join folder components = .ok path) : getDataStream (osOf tree) folder components = look91 (tree path) := by
  unfold getDataStream
  simp only [h, R.ok_bind, osOf]
  cases tree path with
  | none => rfl
  | some n => cases n <;> rfl

private theorem os91 {D : Type} (openAt : List Nat → R D) (folder path : List Nat) (components : List Path.Component)
    (h : join folder components = .ok path) :
    osDataStream openAt folder components = (openAt path).bind (fun d => .ok (some d)) := by
  unfold osDataStream
  rw [h]
  rfl

private theorem bad91 {D : Type} (tree : List Nat → Option (Node D)) (openAt : List Nat → R D) (folder : List Nat)
    (components : List Path.Component) (h : ∀ path, join folder components ≠ .ok path) :
    (∀ o, getDataStream (osOf tree) folder components ≠ .ok o) ∧ ∀ o, osDataStream openAt folder components ≠ .ok o := by
  unfold getDataStream osDataStream
  cases hj : join folder components with
  | ok path => exact absurd hj (h path)
  | err => exact ⟨fun o h => (by cases h), fun o h => (by cases h)⟩
  | panic => exact ⟨fun o h => (by cases h), fun o h => (by cases h)⟩

/-- **C91**, part: if the names lead to a regular file, both resolvers give the data of that file. -/
theorem C91_same_partial {D : Type} (tree : List Nat → Option (Node D)) (other : R D) (folder : List Nat) (components : List Path.Component)
    (d : D) (h : getDataStream (osOf tree) folder components = .ok (some d)) :
    osDataStream (openFile tree other) folder components = .ok (some d) := by
  by_cases hj : ∃ path, join folder components = .ok path
  · obtain ⟨path, hj⟩ := hj
    rw [vfs91 tree folder path components hj] at h
    rw [os91 _ folder path components hj]
    unfold openFile
    cases ht : tree path with
    | none => rw [ht] at h; cases h
    | some n =>
      rw [ht] at h
      cases n with
      | other => cases h
      | file x =>
        have h2 : R.ok (some x) = R.ok (some d) := h
        rw [R.ok.injEq, Option.some.injEq] at h2
        subst h2
        rfl
  · exact absurd h ((bad91 tree (openFile tree other) folder components (fun p e => hj ⟨p, e⟩)).1 _)

/-- **C91**: the resolver of a file system gives no data stream, and no error, if there is no file with the name. -/
theorem C91_missing {D : Type} (tree : List Nat → Option (Node D)) (folder name : List Nat) (path : List Nat)
    (hp : path = if name.head? = some 0x2f then name else if folder = [] ∨ folder.getLast? = some 0x2f then folder ++ name else folder ++ 0x2f :: name)
    (h : tree path = none) : getDataStream (osOf tree) folder [.text name] = .ok none := by
  have e : join folder [.text name] = .ok path := by rw [hp]; rfl
  rw [vfs91 tree folder path _ e, h]
  rfl

/-- **C91**, violated: if there is no file with the names, the resolver of the operating system fails; whatever the names are, it never
tells that there is none. -/
theorem C91_violated_missing {D : Type} (tree : List Nat → Option (Node D)) (other : R D) (folder : List Nat) (components : List Path.Component) :
    (getDataStream (osOf tree) folder components = .ok none → (∀ p, tree p ≠ some .other) →
      osDataStream (openFile tree other) folder components = .err) ∧
    osDataStream (openFile tree other) folder components ≠ .ok none := by
  by_cases hj : ∃ path, join folder components = .ok path
  · obtain ⟨path, hj⟩ := hj
    rw [vfs91 tree folder path components hj, os91 _ folder path components hj]
    refine ⟨fun h ho => ?_, fun h => ?_⟩
    · unfold openFile
      cases ht : tree path with
      | none => rfl
      | some n =>
        rw [ht] at h
        cases n with
        | other => exact absurd ht (ho path)
        | file x =>
          have h2 : R.ok (some x) = R.ok (none : Option D) := h
          simp at h2
    · cases ho : openFile tree other path with
      | ok d =>
        rw [ho] at h
        have h2 : R.ok (some d) = R.ok (none : Option D) := h
        simp at h2
      | err => rw [ho] at h; cases h
      | panic => rw [ho] at h; cases h
  · have hb := bad91 tree (openFile tree other) folder components (fun p e => hj ⟨p, e⟩)
    exact ⟨fun h => absurd h (hb.1 _), hb.2 _⟩

/-- The file "/i/b" of the examples. -/
private def tree91 (p : List Nat) : Option (Node Nat) := if p = [0x2f, 0x69, 0x2f, 0x62] then some (.file 1) else none

/-- Both resolvers find "b" in "/i"; for "c" one gives nothing and the other fails. -/
example : getDataStream (osOf tree91) [0x2f, 0x69] [.text [0x62]] = .ok (some 1) ∧
    osDataStream (openFile tree91 .err) [0x2f, 0x69] [.text [0x62]] = .ok (some 1) ∧
    tree91 [0x2f, 0x69, 0x2f, 0x63] = none ∧ (∀ p, tree91 p ≠ some .other) ∧
    getDataStream (osOf tree91) [0x2f, 0x69] [.text [0x63]] = .ok none ∧
    osDataStream (openFile tree91 .err) [0x2f, 0x69] [.text [0x63]] = .err := by
  refine ⟨rfl, rfl, rfl, ?_, rfl, rfl⟩
  intro p
  unfold tree91
  split <;> simp

/-- The names "a" and "b" are a case of any number of names. -/
example : ∀ n ∈ [[0x61], [0x62]], Plain n := by simp [Plain]

/-- The files of the examples: "/i/b" and "/p". -/
private def os90 : Os Nat Nat where
  entry p := .ok (if p = [0x2f, 0x69, 0x2f, 0x62] then some 1 else if p = [0x2f, 0x70] ∨ p = [0x2f, 0x69, 0x2f, 0x2e, 0x2e, 0x2f, 0x70] then some 2 else none)
  data e := .ok (some (e + 10))

/-- The name "b" in the folder "/i" is a case of the partial theorem. -/
example : Plain [0x62] ∧ place [] [0x2f, 0x69] = [[0x69]] ∧ getDataStream os90 [0x2f, 0x69] [.text [0x62]] = .ok (some 11) := by
  refine ⟨by simp [Plain], by decide, rfl⟩

/-- The names "../p" and "/p" in the folder "/i" give the file beside the folder. -/
example : Plain [0x70] ∧ place [] [0x2f, 0x69] ≠ [] ∧
    getDataStream os90 [0x2f, 0x69] [.text [0x2e, 0x2e, 0x2f, 0x70]] = .ok (some 12) ∧
    getDataStream os90 [0x2f, 0x69] [.text [0x2f, 0x70]] = .ok (some 12) := by
  refine ⟨by simp [Plain], by decide, rfl, rfl⟩

end Keramics.Props
