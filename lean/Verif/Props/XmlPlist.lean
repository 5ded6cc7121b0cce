import Verif.Lemmas.XmlPlistObjects

/-! Property theorems: XML property lists (C71). -/

namespace Keramics.Props

open Keramics XmlPlist Spec.Plist

/-- C71: `XmlPlist::parse` returns an object exactly for the texts of the specification, and it is the object that the text describes. -/
theorem C71_parse (f64 : List Char → Option (BitVec 64)) (text : List Char) (o : Object) : parse f64 text = .ok o ↔ IsPlist f64 text o := by
  constructor
  · intro h
    rcases parse_run f64 text with h' | ⟨m, p, a, c, z, x, ps, h1, h2, h3, h4, h5, h6, h7, h8⟩
    · rw [h'] at h; cases h
    · rw [h8] at h
      obtain ⟨l, hl, hi⟩ := (items_of (fun _ _ => objP_rule) (fun _ _ _ h1 h2 => isObject_of _ h1 h2) h7).2 _ _ h
      exact ⟨m, p, a, c, z, x, l, h2, h3, h4, hi, h5, h6, by rw [h1]; simp, hl⟩
  · rintro ⟨m, p, a, c, z, x, l, h2, h3, h4, h5, h6, h7, rfl, rfl⟩
    have e : m ++ p ++ a ++ c ++ z ++ x = m ++ p ++ (a ++ c ++ z) ++ x := by simp
    rw [e]
    obtain ⟨qs, h8, h9⟩ := parse_takes f64 h2 h3 h4 rfl (takes_IsItems h5 ((m ++ p ++ (a ++ c ++ z) ++ x).length + 1) (by simp only [List.length_append]; omega)) h6 h7
    rw [h8, (h9 _ (Nat.le_refl _)).2]

/-- C71: a text describes at most one object. -/
theorem C71_one_object (f64 : List Char → Option (BitVec 64)) (text : List Char) (o o' : Object) (h : IsPlist f64 text o) (h' : IsPlist f64 text o') : o = o' := by
  have := (C71_parse f64 text o).2 h
  rw [(C71_parse f64 text o').2 h'] at this
  exact (R.ok.inj this).symm

/-- C71, in part: parsing a text in which no date element starts never panics and always ends. -/
theorem C71_no_panic_partial (f64 : List Char → Option (BitVec 64)) (text : List Char) (h : ¬ "<date".toList <:+: text) : parse f64 text ≠ .panic := by
  rcases parse_run f64 text with h' | ⟨m, p, a, c, z, x, ps, h1, h2, h3, h4, h5, h6, h7, h8⟩
  · rw [h']; nofun
  · rw [h8]
    refine (items_ne_panic (fun _ _ => objP_rule) (fun _ _ h1 h2 => object_ne_panic _ (Nat.le_refl _) h1 h2) h7 ?_).2 _
    refine NoDate.sub (t := text) h ?_
    rw [h1]
    exact ⟨m ++ p ++ a, z ++ x, by simp⟩

/-- C71: looking up a key gives the object of the last pair with this key, in the order of the text. -/
theorem C71_get (l : List (List Char × Object)) (key : List Char) (v : Object) :
    (Object.dictionary l).get key = some v ↔ ∃ a b, l = a ++ (key, v) :: b ∧ ∀ p ∈ b, p.1 ≠ key := by
  unfold Object.get
  simp only [Option.map_eq_some_iff, Prod.exists, exists_eq_right]
  constructor
  · rintro ⟨k, h⟩
    obtain ⟨h1, as, bs, h2, h3⟩ := List.find?_eq_some_iff_append.1 h
    have hk : k = key := by simpa using h1
    subst hk
    refine ⟨bs.reverse, as.reverse, ?_, ?_⟩
    · have := congrArg List.reverse h2
      rw [List.reverse_reverse] at this
      rw [this]
      simp
    · intro p hp
      simpa using h3 p (List.mem_reverse.1 hp)
  · rintro ⟨a, b, rfl, h⟩
    refine ⟨key, List.find?_eq_some_iff_append.2 ⟨by simp, b.reverse, a.reverse, by simp, ?_⟩⟩
    intro p hp
    simpa using h p (List.mem_reverse.1 hp)

private theorem frame_takes (f64 : List Char → Option (BitVec 64)) (c : List Char) (Q : List Pair → Prop) (n : Nat) (hn : n = ("<plist>".toList ++ c ++ "</plist>".toList).length + 1)
    (hc : Takes (mixed (object n)) c Stop Q) : ∃ qs, parse f64 ("<plist>".toList ++ c ++ "</plist>".toList) = lastObject (objectElement f64 n) qs .none ∧ Q qs := by
  obtain ⟨qs, h1, h2⟩ := parse_takes f64 (m := []) (p := []) (a := "<plist>".toList) (c := c) (z := "</plist>".toList) (x := []) (n := n) (Q := Q) (.inl rfl)
    ⟨[], [], [], .inl rfl, .nil, .inl rfl, rfl⟩ ⟨[], [], .nil, nofun, rfl⟩ (by simpa using hn) hc ⟨[], nofun, rfl⟩ .nil
  exact ⟨qs, by simpa using h1, h2⟩

private theorem single_run (f64 : List Char → Option (BitVec 64)) {label : String} (hl : label ∈ ["array", "data", "date", "real", "integer", "string"]) {s c e : List Char} {Q : List Pair → Prop}
    (hs : Tag ("<" ++ label) ">" s) (hc : ∀ n, c.length < n → Takes (mixed (object n)) c Stop Q) (he : EndTag ("</" ++ label) e) :
    ∃ qs qa qz m, parse f64 ("<plist>".toList ++ (s ++ c ++ e) ++ "</plist>".toList) = objectOfPair f64 (objectElement f64 m)
      (.node (elementRules label).1 (s ++ c ++ e) [.node (elementRules label).2.1 s qa, .node .plistContent c qs, .node (elementRules label).2.2 e qz]) ∧ Q qs := by
  generalize hn : ("<plist>".toList ++ (s ++ c ++ e) ++ "</plist>".toList).length + 1 = n
  obtain ⟨k, rfl⟩ : ∃ k, n = k + 1 + 1 := ⟨n - 2, by simp only [List.length_append] at hn; have : "<plist>".toList.length = 7 := rfl; omega⟩
  have h1 := takes_object (takes_objectAlt (dict := contentOf .plistDictContent (keysOf (k + 1))) hl hs (takes_contentOf (r := .plistContent) (hc (k + 1) (by
    simp only [List.length_append] at hn; have : "<plist>".toList.length = 7 := rfl; omega))) he)
  have hf : ∃ c' v, s ++ c ++ e = c' :: v ∧ (c' = '<' ∨ c' = '&') := by rw [List.append_assoc]; exact tag_first hs _
  have h2 := takes_mixed_more text_nil (Takes.left h1) hf (takes_mixed_text (object_stop (k + 1 + 1) (by omega)) text_nil)
  obtain ⟨qs, h3, p, ps, rfl, ⟨h4, qa, pc, qz, h5, qs, rfl, h6⟩, rfl⟩ := frame_takes f64 (s ++ c ++ e) _ _ hn.symm (by simpa only [List.append_nil, List.nil_append] using h2)
  refine ⟨qs, qa, qz, k + 1, ?_, h6⟩
  rw [h3]
  simp only [lastObject, rule_node, if_true, h4, reduceCtorEq, if_false, h5, List.cons_append, List.nil_append]
  rw [show objectElement f64 (k + 1 + 1) = fun inner => match inner with
    | [] => .err
    | p :: rest => do
      let o ← objectOfPair f64 (objectElement f64 (k + 1)) p
      R.require (rest = [])
      return o from rfl]
  simp only
  cases objectOfPair f64 (objectElement f64 (k + 1)) _ with
  | ok v => simp only [R.ok_bind, R.require_true]; rfl
  | err => rfl
  | panic => rfl

/-- C71 fails for dates: a property list with a date makes the parser panic, whatever is in the date element. -/
theorem C71_violated_dates (f64 : List Char → Option (BitVec 64)) (s c e : List Char) (hs : Tag "<date" ">" s) (hc : Content c) (he : EndTag "</date" e) :
    parse f64 ("<plist>".toList ++ (s ++ c ++ e) ++ "</plist>".toList) = .panic := by
  obtain ⟨qs, qa, qz, m, h, _⟩ := single_run f64 (label := "date") (by simp) hs (fun n hn => takes_Content hc n hn) he
  exact h

/-- C71 fails for markup in strings: an entity or character reference (such as `&amp;`), a CDATA section, a comment or a processing instruction in a
string makes the whole property list be refused. -/
theorem C71_violated_markup_in_strings (f64 : List Char → Option (BitVec 64)) (s a u b e : List Char) (hs : Tag "<string" ">" s) (ha : Text a)
    (hu : Reference u ∨ Cdata u ∨ Instruction u ∨ Comment u) (hb : Content b) (he : EndTag "</string" e) :
    parse f64 ("<plist>".toList ++ (s ++ (a ++ u ++ b) ++ e) ++ "</plist>".toList) = .err := by
  obtain ⟨_, qa, qz, m, h, q, qs, rfl, h6, _⟩ := single_run f64 (label := "string") (c := a ++ u ++ b) (by simp) hs (by
    intro n hn
    obtain ⟨k, rfl⟩ : ∃ k, n = k + 1 := ⟨n - 1, by omega⟩
    exact takes_mixed_more ha (takes_piece_other (el := object (k + 1)) hu (object_other k hu)) (other_first hu) (takes_Content hb (k + 1) (by
      simp only [List.length_append] at hn; omega))) he
  rw [h]
  have h7 : stringContent (cdPair a :: q :: qs) = .err := by
    simp only [stringContent, rule_node, if_true, (other_rule h6).1, if_false]
    rfl
  show objectOfPair f64 _ (.node .plistStringElement _ [_, _, _]) = _
  simp only [objectOfPair, rule_node, stringElement, inner_node, second_three, R.ok_bind, h7]
  rfl

/-- C71 fails for numbers with white space around them: an integer element whose text is not a number of 64 bits from its first to its last
character makes the whole property list be refused. -/
theorem C71_violated_integers (f64 : List Char → Option (BitVec 64)) (s c e : List Char) (hs : Tag "<integer" ">" s) (hc : Content c) (hn : ∀ n, ¬ IntegerText c n)
    (he : EndTag "</integer" e) : parse f64 ("<plist>".toList ++ (s ++ c ++ e) ++ "</plist>".toList) = .err := by
  obtain ⟨qs, qa, qz, m, h, _⟩ := single_run f64 (label := "integer") (by simp) hs (fun n hn => takes_Content hc n hn) he
  rw [h]
  have hi : i64OfText c = none := by
    cases hi : i64OfText c with
    | none => rfl
    | some n => exact absurd ((i64OfText_iff c n).1 hi) (hn n)
  show objectOfPair f64 _ (.node .plistIntegerElement _ [_, _, _]) = _
  simp only [objectOfPair, rule_node, integerElement, inner_node, text_node, second_three, R.ok_bind, hi]

/-- C71 fails for comments: a comment, and likewise a processing instruction, a CDATA section or a reference, next to the root object makes the
whole property list be refused. -/
theorem C71_violated_comments (f64 : List Char → Option (BitVec 64)) (a u b : List Char) (ha : Text a) (hu : Reference u ∨ Cdata u ∨ Instruction u ∨ Comment u) (hb : Content b) :
    parse f64 ("<plist>".toList ++ (a ++ u ++ b) ++ "</plist>".toList) = .err := by
  generalize hn : ("<plist>".toList ++ (a ++ u ++ b) ++ "</plist>".toList).length + 1 = n
  obtain ⟨k, rfl⟩ : ∃ k, n = k + 1 := ⟨n - 1, by omega⟩
  have h0 := takes_mixed_more ha (takes_piece_other (el := object (k + 1)) hu (object_other k hu)) (other_first hu) (takes_Content hb (k + 1) (by simp only [List.length_append] at hn; omega))
  obtain ⟨qs, h3, p, ps, rfl, h4, _⟩ := frame_takes f64 (a ++ u ++ b) _ _ hn.symm h0
  rw [h3]
  simp [lastObject, other_rule h4]

/-- Whether a run on the grammar fails. -/
def refused (text : List Char) : Bool :=
  match plistDocument (text.length + 1) text with
  | .fail => true
  | _ => false

theorem refused_err (f64 : List Char → Option (BitVec 64)) {text : List Char} (h : refused text = true) : parse f64 text = .err := by
  unfold refused at h
  unfold parse
  cases hp : plistDocument (text.length + 1) text with
  | fail => rfl
  | ok r ps => rw [hp] at h; cases h
  | endless => rw [hp] at h; cases h

/-- C71 fails for what other writers of property lists write: empty elements, the document type of the first versions, a style sheet. -/
theorem C71_violated_refused (f64 : List Char → Option (BitVec 64)) :
    parse f64 "<plist><string/></plist>".toList = .err ∧ parse f64 "<plist><array/></plist>".toList = .err ∧ parse f64 "<plist><dict/></plist>".toList = .err ∧
    parse f64 "<plist><data/></plist>".toList = .err ∧ parse f64 "<plist><true></true></plist>".toList = .err ∧ parse f64 "<plist/>".toList = .err ∧
    parse f64 "<!DOCTYPE plist PUBLIC \"-//Apple Computer//DTD PLIST 1.0//EN\" \"http://www.apple.com/DTDs/PropertyList-1.0.dtd\"><plist><true/></plist>".toList = .err ∧
    parse f64 "<!DOCTYPE plist SYSTEM \"file://localhost/System/Library/DTDs/PropertyList.dtd\"><plist><true/></plist>".toList = .err ∧
    parse f64 "<?xml-stylesheet href='a.css'?><plist><true/></plist>".toList = .err := by
  refine ⟨?_, ?_, ?_, ?_, ?_, ?_, ?_, ?_, ?_⟩ <;> exact refused_err f64 (by decide +kernel)

theorem run_ok {x : R Object} {p : Object → Bool} (h : (match x with | .ok o => p o | _ => false) = true) : ∃ o, x = .ok o ∧ p o = true := by
  cases x with
  | ok o => exact ⟨o, rfl, h⟩
  | err => cases h
  | panic => cases h

/-- C71: the object of a property list with several objects is the last; what comes before it is dropped. -/
theorem C71_violated_several (f64 : List Char → Option (BitVec 64)) (t u w c : List Char) (v v' : Object) (ht : Text t) (hu : IsObject f64 u v) (hc : Text c) (hw : IsObject f64 w v') :
    parse f64 ("<plist>".toList ++ (t ++ u ++ (c ++ w)) ++ "</plist>".toList) = .ok v' := by
  rw [C71_parse]
  have h : IsItems f64 (c ++ w) [v'] := by simpa using IsItems.cons c w [] v' [] hc hw (.nil _ text_nil)
  exact ⟨[], [], "<plist>".toList, _, "</plist>".toList, [], [v, v'], .inl rfl, ⟨[], [], [], .inl rfl, .nil, .inl rfl, rfl⟩, ⟨[], [], .nil, nofun, rfl⟩,
    .cons t u _ v _ ht hu h, ⟨[], nofun, rfl⟩, .nil, by simp, rfl⟩

/-! Concrete cases. -/

/-- A property list as a disk image has it. -/
def plistSample : List Char :=
  "<?xml version=\"1.0\" encoding=\"UTF-8\"?>\n<!DOCTYPE plist PUBLIC \"-//Apple//DTD PLIST 1.0//EN\" \"http://www.apple.com/DTDs/PropertyList-1.0.dtd\">\n<plist version=\"1.0\">\n<dict>\n\t<key>blkx</key>\n\t<array>\n\t\t<dict><key>Data</key>\n<data>\n\tbWlz\n\taA==\n</data><key>ID</key><integer>-1</integer></dict>\n\t</array><key>Name</key><string>a  b</string><key>On</key><true/>\n</dict>\n</plist>\n".toList

example : ∃ o, IsPlist (fun _ => none) plistSample o ∧ (o.str "Name".toList = some "a  b".toList ∧
    ∃ d, o.vector "blkx".toList = some [d] ∧ d.bytes "Data".toList = some [0x6d, 0x69, 0x73, 0x68] ∧ d.int "ID".toList = some (-1)) := by
  obtain ⟨o, h1, h2⟩ := run_ok (x := parse (fun _ => none) plistSample) (p := fun o => decide (o.str "Name".toList = some "a  b".toList) &&
    match o.vector "blkx".toList with
    | some [d] => decide (d.bytes "Data".toList = some [0x6d, 0x69, 0x73, 0x68]) && decide (d.int "ID".toList = some (-1))
    | _ => false) (by decide +kernel)
  rw [Bool.and_eq_true, decide_eq_true_eq] at h2
  refine ⟨o, (C71_parse _ _ _).1 h1, h2.1, ?_⟩
  have h3 := h2.2
  cases hv : o.vector "blkx".toList with
  | none => rw [hv] at h3; cases h3
  | some l =>
    rw [hv] at h3
    match l, h3 with
    | [d], h3 =>
      rw [Bool.and_eq_true, decide_eq_true_eq, decide_eq_true_eq] at h3
      exact ⟨d, rfl, h3⟩

example : ¬ "<date".toList <:+: plistSample := by decide +kernel

example (f64 : List Char → Option (BitVec 64)) : parse f64 "<plist><date>2024-01-01T00:00:00Z</date></plist>".toList = .panic :=
  C71_violated_dates f64 "<date>".toList "2024-01-01T00:00:00Z".toList "</date>".toList ⟨[], [], .nil, nofun, rfl⟩
    (.text _ ⟨by intro c hc; simp at hc; unfold IsChar; rcases hc with rfl | rfl | rfl | rfl | rfl | rfl | rfl | rfl | rfl | rfl | rfl | rfl | rfl | rfl | rfl | rfl | rfl | rfl | rfl | rfl <;> decide,
      by decide +kernel⟩) ⟨[], nofun, rfl⟩

example (f64 : List Char → Option (BitVec 64)) : parse f64 "<plist><string>&amp;</string></plist>".toList = .err :=
  C71_violated_markup_in_strings f64 "<string>".toList [] "&amp;".toList [] "</string>".toList ⟨[], [], .nil, nofun, rfl⟩ text_nil
    (.inl (.entity "amp".toList ⟨'a', ['m', 'p'], rfl, .inr (.inr ⟨('a'.toNat, 'z'.toNat), by simp, by decide, by decide⟩), by
      intro x hx
      refine .inl (.inr (.inr ⟨('a'.toNat, 'z'.toNat), by simp, ?_⟩))
      simp at hx
      rcases hx with rfl | rfl <;> decide⟩)) (.text _ text_nil) ⟨[], nofun, rfl⟩

example (f64 : List Char → Option (BitVec 64)) : parse f64 "<plist><integer>1 </integer></plist>".toList = .err := by
  refine C71_violated_integers f64 "<integer>".toList "1 ".toList "</integer>".toList ⟨[], [], .nil, nofun, rfl⟩ (.text _ ⟨?_, by decide +kernel⟩) ?_ ⟨[], nofun, rfl⟩
  · intro c hc
    simp at hc
    unfold IsChar
    rcases hc with rfl | rfl <;> decide
  · intro n hn
    have h : i64OfText "1 ".toList = none := by decide +kernel
    rw [(i64OfText_iff _ _).2 hn] at h
    cases h

example (f64 : List Char → Option (BitVec 64)) : parse f64 "<plist><true/><false/></plist>".toList = .ok (.boolean false) :=
  C71_violated_several f64 [] "<true/>".toList "<false/>".toList [] (.boolean true) (.boolean false) text_nil (.true _ ⟨[], [], .nil, nofun, rfl⟩) text_nil (.false _ ⟨[], [], .nil, nofun, rfl⟩)

example (f64 : List Char → Option (BitVec 64)) : parse f64 "<plist><!--a--><true/></plist>".toList = .err :=
  C71_violated_comments f64 [] "<!--a-->".toList "<true/>".toList text_nil (.inr (.inr (.inr ⟨['a'], by intro c hc; rw [List.mem_singleton.1 hc]; unfold IsChar; decide, by decide, rfl⟩)))
    (by simpa using Content.element [] "<true/>".toList [] text_nil (.boolean "true" _ (by simp) ⟨[], [], .nil, nofun, rfl⟩) (.text _ text_nil))

example : (Object.dictionary [("a".toList, .integer 1), ("a".toList, .integer 2), ("b".toList, .none)]).get "a".toList = some (.integer 2) := rfl

end Keramics.Props
