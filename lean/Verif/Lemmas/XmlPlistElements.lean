import Verif.Lemmas.XmlPlistProlog

/-! Lemmas about the model of XML property lists: elements, and the objects made of them. -/

namespace Keramics.XmlPlist

open Spec.Plist

/-- The pair of a text. -/
abbrev cdPair (t : List Char) : Pair := .node .characterData t []

/-- The alternatives in a content. -/
abbrev piece (el : Expr) : Expr := el // reference // cdataSection // processingInstructions // comment

/-- A content. -/
abbrev mixed (el : Expr) : Expr := opt characterData ~~ star (piece el ~~ opt characterData)

/-! ### What contents and elements give -/

/-- A text with its pair, or nothing. -/
def OptText (t : List Char) (ps : List Pair) : Prop := (Text t ∧ ps = [cdPair t]) ∨ (t = [] ∧ ps = [])

theorem text_nil : Text [] := ⟨nofun, by simp⟩

theorem OptText.text {t ps} (h : OptText t ps) : Text t := by
  rcases h with h | ⟨rfl, _⟩
  · exact h.1
  · exact text_nil

/-- References, CDATA sections, processing instructions and comments. -/
def Other (u : List Char) : Prop := Reference u ∨ Cdata u ∨ Instruction u ∨ Comment u

/-- The rules of these. -/
def otherRules : List Rule := [.reference, .cdataSection, .processingInstructions, .comment]

/-- A content and its pairs. -/
inductive Mixed (X : List Char → Pair → Prop) : List Char → List Pair → Prop
  | text {t ps} : OptText t ps → Mixed X t ps
  | elem {t ps u p w qs} : OptText t ps → X u p → Mixed X w qs → Mixed X (t ++ u ++ w) (ps ++ p :: qs)
  | other {t ps u p w qs} : OptText t ps → Other u → p.rule ∈ otherRules → Mixed X w qs → Mixed X (t ++ u ++ w) (ps ++ p :: qs)

theorem gives_optText (n : Nat) : Gives n (opt characterData) OptText := (gives_characterData n).opt

theorem gives_mixed {n : Nat} {el : Expr} {X : List Char → Pair → Prop} (h : Gives n el (fun t ps => ∃ p, ps = [p] ∧ X t p)) (hX : ∀ t p, X t p → t ≠ []) :
    Gives n (mixed el) (Mixed X) := by
  refine ((gives_optText n).seq ((Gives.seq (h.alt ((gives_reference n).alt ((gives_cdata n).alt ((gives_instruction n).alt (gives_comment n))))) (gives_optText n)).star ?_)).mono ?_
  · rintro t ps ⟨u, o, _, _, rfl, _, h1, _⟩
    have : u ≠ [] := by
      rcases h1 with ⟨p, _, h1⟩ | ⟨h1, _⟩ | ⟨h1, _⟩ | ⟨h1, _⟩ | ⟨h1, _⟩
      · exact hX _ _ h1
      · obtain ⟨v, rfl⟩ := ref_head h1; simp
      · obtain ⟨v, _, _, rfl⟩ := h1; simp
      · obtain ⟨v, rfl⟩ := instruction_head h1; simp
      · obtain ⟨v, rfl⟩ := comment_head h1; simp
    simp [this]
  · rintro t ps ⟨a, b, pa, pb, rfl, rfl, h1, h2⟩
    induction h2 generalizing a pa with
    | nil => simpa using Mixed.text h1
    | cons h3 _ ih =>
      obtain ⟨u, o, pu, po, rfl, rfl, h4, h5⟩ := h3
      have := ih o po h5
      rcases h4 with ⟨p, rfl, h4⟩ | ⟨h4, q, rfl⟩ | ⟨h4, q, rfl⟩ | ⟨h4, q, rfl⟩ | ⟨h4, q, rfl⟩
      · simpa only [List.append_assoc, List.singleton_append, List.cons_append, List.nil_append] using Mixed.elem h1 h4 this
      · simpa only [List.append_assoc, List.singleton_append, List.cons_append, List.nil_append] using Mixed.other (p := .node .reference u q) h1 (.inl h4) (by simp [Pair.rule, otherRules]) this
      · simpa only [List.append_assoc, List.singleton_append, List.cons_append, List.nil_append] using Mixed.other (p := .node .cdataSection u q) h1 (.inr (.inl h4)) (by simp [Pair.rule, otherRules]) this
      · simpa only [List.append_assoc, List.singleton_append, List.cons_append, List.nil_append] using Mixed.other (p := .node .processingInstructions u q) h1 (.inr (.inr (.inl h4))) (by simp [Pair.rule, otherRules]) this
      · simpa only [List.append_assoc, List.singleton_append, List.cons_append, List.nil_append] using Mixed.other (p := .node .comment u q) h1 (.inr (.inr (.inr h4))) (by simp [Pair.rule, otherRules]) this

/-- A content as a pair. -/
def ContP (r : Rule) (X : List Char → Pair → Prop) (c : List Char) (p : Pair) : Prop := ∃ ps, p = .node r c ps ∧ Mixed X c ps

/-- An element with a content as a pair. -/
def ElP (r s e : Rule) (label : String) (C : List Char → Pair → Prop) (t : List Char) (q : Pair) : Prop :=
  ∃ a c z qa pc qz, t = a ++ c ++ z ∧ Tag ("<" ++ label) ">" a ∧ C c pc ∧ EndTag ("</" ++ label) z ∧ q = .node r t [.node s a qa, pc, .node e z qz]

theorem tag_ne {start close : String} (h0 : start.toList ≠ []) {t : List Char} (h : Tag start close t) : t ≠ [] := by
  obtain ⟨a, s, _, _, rfl⟩ := h
  simp [h0]

theorem lt_ne (label : String) : ("<" ++ label).toList ≠ [] := by simp

theorem gives_content {n : Nat} {el : Expr} {X : List Char → Pair → Prop} (r : Rule) (h : Gives n el (fun t ps => ∃ p, ps = [p] ∧ X t p)) (hX : ∀ t p, X t p → t ≠ []) :
    Gives n (contentOf r el) (fun t ps => ∃ p, ps = [p] ∧ ContP r X t p) :=
  ((gives_mixed h hX).rule r).mono fun _ _ ⟨qs, h1, h2⟩ => ⟨_, h1, qs, rfl, h2⟩

private theorem elP_of {r s e : Rule} {label : String} {C : List Char → Pair → Prop} {t ps}
    (h : ∃ qs, ps = [Pair.node r t qs] ∧ ∃ a b pa pb, t = a ++ b ∧ qs = pa ++ pb ∧ (∃ qs, pa = [Pair.node s a qs] ∧ Tag ("<" ++ label) ">" a) ∧
      ∃ c z pc pz, b = c ++ z ∧ pb = pc ++ pz ∧ (∃ p, pc = [p] ∧ C c p) ∧ ∃ qs, pz = [Pair.node e z qs] ∧ EndTag ("</" ++ label) z) : ∃ p, ps = [p] ∧ ElP r s e label C t p := by
  obtain ⟨qs, rfl, a, b, pa, pb, rfl, rfl, ⟨qa, rfl, h1⟩, c, z, pc, pz, rfl, rfl, ⟨p, rfl, h2⟩, qz, rfl, h3⟩ := h
  exact ⟨_, rfl, a, c, z, qa, p, qz, by simp, h1, h2, h3, by simp⟩

theorem gives_element {n : Nat} (r s e : Rule) (label : String) {content : Expr} {C : List Char → Pair → Prop} (h : Gives n content (fun t ps => ∃ p, ps = [p] ∧ C t p)) :
    Gives n (elementOf r s e label content) (fun t ps => ∃ p, ps = [p] ∧ ElP r s e label C t p) :=
  (Gives.rule r (((gives_tag n ("<" ++ label) ">").rule s).seq (h.seq ((gives_endTag n ("</" ++ label)).rule e)))).mono fun _ _ h => elP_of h

theorem gives_element' {n : Nat} (r s e : Rule) (label : String) {content : Expr} {C : List Char → Pair → Prop} (h : Gives n content (fun t ps => ∃ p, ps = [p] ∧ C t p)) :
    Gives (n + 1) (elementOf r s e label content) (fun t ps => ∃ p, ps = [p] ∧ ElP r s e label C t p) :=
  (Gives.rule r (((gives_tag (n + 1) ("<" ++ label) ">").rule s).seq' (by rintro t ps ⟨_, _, h⟩; exact tag_ne (lt_ne label) h)
    (h.seq ((gives_endTag n ("</" ++ label)).rule e)))).mono fun _ _ h => elP_of h

/-- A key and an object as a pair. -/
def KeyP (X : List Char → Pair → Prop) (t : List Char) (p : Pair) : Prop :=
  ∃ k b u pk pb pu, t = k ++ b ++ u ∧ p = .node .plistKeyAndObjectElementPair t (pk :: pb ++ [pu]) ∧
    ElP .plistKeyElement .plistKeyElementStartTag .plistKeyElementEndTag "key" (ContP .plistContent X) k pk ∧ OptText b pb ∧ X u pu

/-- An element of a boolean value as a pair. -/
def BoolP (r : Rule) (start : String) (t : List Char) (q : Pair) : Prop := ∃ qs, q = .node r t qs ∧ Tag start "/>" t

/-- The alternatives of an element of an object. -/
def AnyP (X : List Char → Pair → Prop) (t : List Char) (q : Pair) : Prop :=
  let C := ContP .plistContent X
  ElP .plistArrayElement .plistArrayElementStartTag .plistArrayElementEndTag "array" C t q ∨
  BoolP .plistBooleanFalseElement "<false" t q ∨
  BoolP .plistBooleanTrueElement "<true" t q ∨
  ElP .plistDataElement .plistDataElementStartTag .plistDataElementEndTag "data" C t q ∨
  ElP .plistDateElement .plistDateElementStartTag .plistDateElementEndTag "date" C t q ∨
  ElP .plistDictElement .plistDictElementStartTag .plistDictElementEndTag "dict" (ContP .plistDictContent (KeyP X)) t q ∨
  ElP .plistFloatingPointElement .plistFloatingPointElementStartTag .plistFloatingPointElementEndTag "real" C t q ∨
  ElP .plistIntegerElement .plistIntegerElementStartTag .plistIntegerElementEndTag "integer" C t q ∨
  ElP .plistStringElement .plistStringElementStartTag .plistStringElementEndTag "string" C t q

/-- An element of an object as a pair, with a bound on the nesting. -/
def ObjP : Nat → List Char → Pair → Prop
  | 0 => fun _ _ => False
  | n + 1 => fun t p => ∃ q, p = .node .plistObjectElement t [q] ∧ AnyP (ObjP n) t q

theorem elP_ne {r s e : Rule} {label : String} {C : List Char → Pair → Prop} {t q} (h : ElP r s e label C t q) : t ≠ [] := by
  obtain ⟨a, c, z, _, _, _, rfl, h1, _⟩ := h
  have := tag_ne (lt_ne label) h1
  simp [this]

theorem anyP_ne {X : List Char → Pair → Prop} {t q} (h : AnyP X t q) : t ≠ [] := by
  rcases h with h | ⟨_, _, h⟩ | ⟨_, _, h⟩ | h | h | h | h | h | h
  · exact elP_ne h
  · exact tag_ne (by simp) h
  · exact tag_ne (by simp) h
  all_goals exact elP_ne h

theorem objP_ne {n : Nat} {t p} (h : ObjP n t p) : t ≠ [] := by
  cases n with
  | zero => exact h.elim
  | succ n => obtain ⟨q, _, h⟩ := h; exact anyP_ne h

theorem Gives.alt1 {n p q} {P Q : List Char → Pair → Prop} (hp : Gives n p (fun t ps => ∃ x, ps = [x] ∧ P t x)) (hq : Gives n q (fun t ps => ∃ x, ps = [x] ∧ Q t x)) :
    Gives n (XmlPlist.alt p q) (fun t ps => ∃ x, ps = [x] ∧ (P t x ∨ Q t x)) :=
  (hp.alt hq).mono fun _ _ h => h.elim (fun ⟨x, h1, h2⟩ => ⟨x, h1, .inl h2⟩) fun ⟨x, h1, h2⟩ => ⟨x, h1, .inr h2⟩

theorem gives_bool (n : Nat) (r : Rule) (start : String) : Gives n (rule r (tag start "/>")) (fun t ps => ∃ x, ps = [x] ∧ BoolP r start t x) :=
  ((gives_tag n start "/>").rule r).mono fun _ _ ⟨qs, h1, h2⟩ => ⟨_, h1, qs, rfl, h2⟩

theorem gives_keyPair {n : Nat} {X : List Char → Pair → Prop} {object : Expr} (h : Gives n object (fun t ps => ∃ p, ps = [p] ∧ X t p)) (hX : ∀ t p, X t p → t ≠ []) :
    Gives n (keyPairOf (contentOf .plistContent object) object) (fun t ps => ∃ p, ps = [p] ∧ KeyP X t p) :=
  (Gives.rule .plistKeyAndObjectElementPair ((gives_element .plistKeyElement .plistKeyElementStartTag .plistKeyElementEndTag "key" (gives_content .plistContent h hX)).seq
    ((gives_optText n).seq h))).mono (by
    rintro t ps ⟨qs, rfl, k, _, _, _, rfl, rfl, ⟨pk, rfl, h1⟩, b, u, pb, _, rfl, rfl, h2, pu, rfl, h3⟩
    exact ⟨_, rfl, k, b, u, pk, pb, pu, by simp, by simp, h1, h2, h3⟩)

theorem gives_object : ∀ n : Nat, Gives n (object n) (fun t ps => ∃ p, ps = [p] ∧ ObjP n t p)
  | 0 => fun s hs => by omega
  | n + 1 => by
    have ih := gives_object n
    have hX : ∀ t p, ObjP n t p → t ≠ [] := fun _ _ => objP_ne
    have hc := gives_content .plistContent ih hX
    have hk := gives_content .plistDictContent (gives_keyPair ih hX) (by
      rintro t p ⟨k, b, u, _, _, _, rfl, _, h, _⟩
      have := elP_ne h
      simp [this])
    refine (Gives.rule .plistObjectElement ((gives_element' _ _ _ "array" hc).alt1 ((gives_bool (n + 1) .plistBooleanFalseElement "<false").alt1
      ((gives_bool (n + 1) .plistBooleanTrueElement "<true").alt1 ((gives_element' _ _ _ "data" hc).alt1 ((gives_element' _ _ _ "date" hc).alt1
      ((gives_element' _ _ _ "dict" hk).alt1 ((gives_element' _ _ _ "real" hc).alt1 ((gives_element' _ _ _ "integer" hc).alt1 (gives_element' _ _ _ "string" hc)))))))))).mono ?_
    rintro t ps ⟨qs, rfl, q, rfl, h⟩
    exact ⟨_, rfl, q, rfl, h⟩

/-! ### Pairs are of elements of the specification -/

theorem content_of {X : List Char → Pair → Prop} (hX : ∀ t p, X t p → Element t) {c ps} (h : Mixed X c ps) : Content c := by
  induction h with
  | text h => exact .text _ h.text
  | elem h1 h2 _ ih => exact .element _ _ _ h1.text (hX _ _ h2) ih
  | other h1 h2 _ _ ih => exact .other _ _ _ h1.text h2 ih

theorem pairs_of {X : List Char → Pair → Prop} (hX : ∀ t p, X t p → Element t) {c ps} (h : Mixed (KeyP X) c ps) : Pairs c := by
  induction h with
  | text h => exact .text _ h.text
  | elem h1 h2 _ ih =>
    obtain ⟨k, b, u, pk, pb, pu, rfl, _, ⟨a, c, z, _, pc, _, rfl, h3, ⟨_, _, h4⟩, h5, _⟩, h6, h7⟩ := h2
    exact .pair _ _ _ _ _ _ _ h1.text h3 (content_of hX h4) h5 h6.text (hX _ _ h7) ih
  | other h1 h2 _ _ ih => exact .other _ _ _ h1.text h2 ih

theorem element_of {n : Nat} : ∀ {t p}, ObjP n t p → Element t := by
  induction n with
  | zero => intro t p h; exact h.elim
  | succ n ih =>
    rintro t p ⟨q, _, h⟩
    have key : ∀ {r s e : Rule} {label : String}, label ∈ ["array", "data", "date", "real", "integer", "string"] → ElP r s e label (ContP .plistContent (ObjP n)) t q → Element t := by
      rintro r s e label hl ⟨a, c, z, _, _, _, rfl, h1, ⟨_, _, h2⟩, h3, _⟩
      exact .mixed label a c z hl h1 (content_of (fun _ _ => ih) h2) h3
    rcases h with h | ⟨_, _, h⟩ | ⟨_, _, h⟩ | h | h | h | h | h | h
    · exact key (by decide) h
    · exact .boolean "false" t (by decide) h
    · exact .boolean "true" t (by decide) h
    · exact key (by decide) h
    · exact key (by decide) h
    · obtain ⟨a, c, z, _, _, _, rfl, h1, ⟨_, _, h2⟩, h3, _⟩ := h
      exact .dict a c z h1 (pairs_of (fun _ _ => ih) h2) h3
    · exact key (by decide) h
    · exact key (by decide) h
    · exact key (by decide) h

/-! ### What contents and elements take -/

theorem seq_inv {p q : Expr} {s rest : List Char} {rs : List Pair} (h : seq p q s = .ok rest rs) : ∃ s' ps qs, p s = .ok s' ps ∧ q s' = .ok rest qs ∧ rs = ps ++ qs := by
  unfold seq at h
  cases hp : p s with
  | fail => rw [hp] at h; cases h
  | endless => rw [hp] at h; cases h
  | ok s' ps =>
    rw [hp] at h
    simp only at h
    cases hq : q s' with
    | fail => rw [hq] at h; cases h
    | endless => rw [hq] at h; cases h
    | ok s'' qs => rw [hq] at h; cases h; exact ⟨s', ps, qs, rfl, hq, rfl⟩

/-- An end tag is next. -/
def Stop (r : List Char) : Prop := ∃ r', r = '<' :: '/' :: r'

theorem piece_fail {el : Expr} {r : List Char} (hr : Stop r) (he : el r = .fail) : piece el r = .fail := by
  obtain ⟨r', rfl⟩ := hr
  exact alt_fail he (alt_fail (reference_fail (noHead_cons.2 (by decide))) (alt_fail (rule_fail (seq_fail (lit_fail (by simp))))
    (alt_fail (rule_fail (seq_fail (lit_fail (by simp)))) (rule_fail (seq_fail (lit_fail (by simp)))))))

theorem stop_noHead {r : List Char} (hr : Stop r) : NoHead efcB r := by
  obtain ⟨r', rfl⟩ := hr
  exact noHead_cons.2 (by decide)

theorem takes_mixed_text {el : Expr} (he : ∀ r, Stop r → el r = .fail) {t : List Char} (ht : Text t) : Takes (mixed el) t Stop (· = [cdPair t]) := by
  have := ((takes_characterData ht).some.mono (G := Stop) (fun r hr => stop_noHead hr) (fun _ h => h)).seq
    (takes_star_nil (p := piece el ~~ opt characterData) (F := Stop) fun r hr => seq_fail (piece_fail hr (he r hr))) (fun r hr => hr) (R' := (· = [cdPair t])) (by rintro _ _ rfl rfl; rfl)
  simpa using this

theorem takes_mixed_more {el : Expr} {t u w : List Char} {P : Pair → Prop} {Q : List Pair → Prop} (ht : Text t)
    (hu : Takes (piece el) u (fun _ => True) (fun ps => ∃ p, ps = [p] ∧ P p)) (hh : ∃ c v, u = c :: v ∧ (c = '<' ∨ c = '&')) (hw : Takes (mixed el) w Stop Q) :
    Takes (mixed el) (t ++ u ++ w) Stop (fun ps => ∃ p qs, ps = cdPair t :: p :: qs ∧ P p ∧ Q qs) := by
  intro rest hr
  obtain ⟨qs, h1, h2⟩ := hw rest hr
  obtain ⟨s', q1, q2, h3, h4, rfl⟩ := seq_inv h1
  obtain ⟨_, h5, p, rfl, hP⟩ := hu (w ++ rest) trivial
  obtain ⟨c, v, rfl, hc⟩ := hh
  obtain ⟨_, h6, rfl⟩ := (takes_characterData ht).some (c :: v ++ (w ++ rest)) (noHead_cons.2 (by rcases hc with rfl | rfl <;> decide))
  have hlen : s'.length ≤ (w ++ rest).length := by
    rcases gives_optText ((w ++ rest).length + 1) (w ++ rest) (by omega) with ⟨t', r', ps', h7, h8, _⟩ | h7
    · rw [h3] at h7
      cases h7
      rw [h8, List.length_append]
      omega
    · rw [h3] at h7; cases h7
  have h8 := star_step (seq_ok h5 h3) (by simp only [List.length_append, List.length_cons] at hlen ⊢; omega) h4
  refine ⟨[cdPair t] ++ ([p] ++ q1 ++ q2), ?_, p, q1 ++ q2, by simp, hP, h2⟩
  have := seq_ok h6 h8
  simpa only [List.append_assoc] using this

theorem takes_element {r s e : Rule} {label : String} {content : Expr} {a c z : List Char} {Q : List Pair → Prop} (ha : Tag ("<" ++ label) ">" a) (hc : Takes content c Stop Q)
    (hz : EndTag ("</" ++ label) z) : Takes (elementOf r s e label content) (a ++ c ++ z) (fun _ => True)
      (fun ps => ∃ qa pc qz, ps = [.node r (a ++ c ++ z) (.node s a qa :: pc ++ [.node e z qz])] ∧ Q pc) := by
  have hstop : ∀ r : List Char, True → Stop (z ++ r) := by
    intro r _
    obtain ⟨x, _, rfl⟩ := hz
    exact ⟨label.toList ++ x ++ ['>'] ++ r, by simp⟩
  have := (((takes_tag ha (.inl rfl)).rule s).seq (hc.seq ((takes_endTag hz).rule e) hstop (R' := fun ps => ∃ pc qz, ps = pc ++ [.node e z qz] ∧ Q pc)
      (by rintro ps qs h ⟨qz, rfl, _⟩; exact ⟨ps, qz, rfl, h⟩)) (fun _ _ => trivial)
      (R' := fun ps => ∃ qa pc qz, ps = .node s a qa :: pc ++ [.node e z qz] ∧ Q pc)
      (by rintro ps qs ⟨qa, rfl, _⟩ ⟨pc, qz, rfl, h⟩; exact ⟨qa, pc, qz, by simp, h⟩)).rule r
  rw [← List.append_assoc] at this
  exact this.mono (fun _ h => h) fun ps ⟨qs, h1, qa, pc, qz, h2, h3⟩ => ⟨qa, pc, qz, by rw [h1, h2], h3⟩

theorem element_fail {r s e : Rule} {label : String} {content : Expr} {x : List Char} (h : ¬ ("<" ++ label).toList <+: x) : elementOf r s e label content x = .fail :=
  rule_fail (seq_fail (rule_fail (seq_fail (lit_fail h))))

theorem bool_fail {r : Rule} {start : String} {x : List Char} (h : ¬ start.toList <+: x) : rule r (tag start "/>") x = .fail := rule_fail (seq_fail (lit_fail h))

theorem object_stop : ∀ n, 0 < n → ∀ r, Stop r → object n r = .fail
  | 0, h, _, _ => by omega
  | n + 1, _, r, hr => by
    obtain ⟨r', rfl⟩ := hr
    unfold object
    exact rule_fail (alt_fail (element_fail (by simp)) (alt_fail (bool_fail (by simp)) (alt_fail (bool_fail (by simp)) (alt_fail (element_fail (by simp))
      (alt_fail (element_fail (by simp)) (alt_fail (element_fail (by simp)) (alt_fail (element_fail (by simp)) (alt_fail (element_fail (by simp)) (element_fail (by simp))))))))))

theorem keyPair_stop (content object : Expr) : ∀ r, Stop r → keyPairOf content object r = .fail := by
  rintro r ⟨r', rfl⟩
  exact rule_fail (seq_fail (element_fail (by simp)))

theorem tag_start {start close : String} {t : List Char} (h : Tag start close t) (r : List Char) : ∃ x, t ++ r = start.toList ++ x := by
  obtain ⟨a, s, _, _, rfl⟩ := h
  exact ⟨a ++ s ++ close.toList ++ r, by simp⟩

/-- The alternatives of an element of an object. -/
abbrev objectAlt (content dict : Expr) : Expr :=
  elementOf .plistArrayElement .plistArrayElementStartTag .plistArrayElementEndTag "array" content //
    rule .plistBooleanFalseElement (tag "<false" "/>") //
    rule .plistBooleanTrueElement (tag "<true" "/>") //
    elementOf .plistDataElement .plistDataElementStartTag .plistDataElementEndTag "data" content //
    elementOf .plistDateElement .plistDateElementStartTag .plistDateElementEndTag "date" content //
    elementOf .plistDictElement .plistDictElementStartTag .plistDictElementEndTag "dict" dict //
    elementOf .plistFloatingPointElement .plistFloatingPointElementStartTag .plistFloatingPointElementEndTag "real" content //
    elementOf .plistIntegerElement .plistIntegerElementStartTag .plistIntegerElementEndTag "integer" content //
    elementOf .plistStringElement .plistStringElementStartTag .plistStringElementEndTag "string" content

/-- The rules of the elements with a content. -/
def elementRules : String → Rule × Rule × Rule
  | "array" => (.plistArrayElement, .plistArrayElementStartTag, .plistArrayElementEndTag)
  | "data" => (.plistDataElement, .plistDataElementStartTag, .plistDataElementEndTag)
  | "date" => (.plistDateElement, .plistDateElementStartTag, .plistDateElementEndTag)
  | "dict" => (.plistDictElement, .plistDictElementStartTag, .plistDictElementEndTag)
  | "real" => (.plistFloatingPointElement, .plistFloatingPointElementStartTag, .plistFloatingPointElementEndTag)
  | "integer" => (.plistIntegerElement, .plistIntegerElementStartTag, .plistIntegerElementEndTag)
  | _ => (.plistStringElement, .plistStringElementStartTag, .plistStringElementEndTag)

theorem takes_objectAlt {content dict : Expr} {label : String} (hl : label ∈ ["array", "data", "date", "real", "integer", "string"]) {a c z : List Char} {Q : List Pair → Prop}
    (ha : Tag ("<" ++ label) ">" a) (hc : Takes content c Stop Q) (hz : EndTag ("</" ++ label) z) : Takes (objectAlt content dict) (a ++ c ++ z) (fun _ => True)
      (fun ps => ∃ qa pc qz, ps = [.node (elementRules label).1 (a ++ c ++ z) (.node (elementRules label).2.1 a qa :: pc ++ [.node (elementRules label).2.2 z qz])] ∧ Q pc) := by
  have hs : ∀ r : List Char, ∃ x, a ++ c ++ z ++ r = ("<" ++ label).toList ++ x := by
    intro r
    obtain ⟨x, hx⟩ := tag_start ha (c ++ z ++ r)
    exact ⟨x, by rw [← hx]; simp⟩
  have hf : ∀ (r s e : Rule) (l : String) (k : Expr), (∀ x : List Char, ¬ ("<" ++ l).toList <+: ("<" ++ label).toList ++ x) → ∀ y, True → elementOf r s e l k (a ++ c ++ z ++ y) = .fail := by
    intro r s e l k h y _
    obtain ⟨x, hx⟩ := hs y
    exact element_fail (by rw [hx]; exact h x)
  have hb : ∀ (r : Rule) (l : String), (∀ x : List Char, ¬ l.toList <+: ("<" ++ label).toList ++ x) → ∀ y, True → rule r (tag l "/>") (a ++ c ++ z ++ y) = .fail := by
    intro r l h y _
    obtain ⟨x, hx⟩ := hs y
    exact bool_fail (by rw [hx]; exact h x)
  simp only [List.mem_cons, List.not_mem_nil, or_false] at hl
  rcases hl with rfl | rfl | rfl | rfl | rfl | rfl
  · exact Takes.left (takes_element ha hc hz)
  · exact Takes.right (hf _ _ _ _ _ (by simp)) (Takes.right (hb _ _ (by simp)) (Takes.right (hb _ _ (by simp)) (Takes.left (takes_element ha hc hz))))
  · exact Takes.right (hf _ _ _ _ _ (by simp)) (Takes.right (hb _ _ (by simp)) (Takes.right (hb _ _ (by simp)) (Takes.right (hf _ _ _ _ _ (by simp))
      (Takes.left (takes_element ha hc hz)))))
  · exact Takes.right (hf _ _ _ _ _ (by simp)) (Takes.right (hb _ _ (by simp)) (Takes.right (hb _ _ (by simp)) (Takes.right (hf _ _ _ _ _ (by simp))
      (Takes.right (hf _ _ _ _ _ (by simp)) (Takes.right (hf _ _ _ _ _ (by simp)) (Takes.left (takes_element ha hc hz)))))))
  · exact Takes.right (hf _ _ _ _ _ (by simp)) (Takes.right (hb _ _ (by simp)) (Takes.right (hb _ _ (by simp)) (Takes.right (hf _ _ _ _ _ (by simp))
      (Takes.right (hf _ _ _ _ _ (by simp)) (Takes.right (hf _ _ _ _ _ (by simp)) (Takes.right (hf _ _ _ _ _ (by simp)) (Takes.left (takes_element ha hc hz))))))))
  · exact Takes.right (hf _ _ _ _ _ (by simp)) (Takes.right (hb _ _ (by simp)) (Takes.right (hb _ _ (by simp)) (Takes.right (hf _ _ _ _ _ (by simp))
      (Takes.right (hf _ _ _ _ _ (by simp)) (Takes.right (hf _ _ _ _ _ (by simp)) (Takes.right (hf _ _ _ _ _ (by simp)) (Takes.right (hf _ _ _ _ _ (by simp))
      (takes_element ha hc hz))))))))

theorem takes_objectAlt_dict {content dict : Expr} {a c z : List Char} {Q : List Pair → Prop}
    (ha : Tag "<dict" ">" a) (hc : Takes dict c Stop Q) (hz : EndTag "</dict" z) : Takes (objectAlt content dict) (a ++ c ++ z) (fun _ => True)
      (fun ps => ∃ qa pc qz, ps = [.node .plistDictElement (a ++ c ++ z) (.node .plistDictElementStartTag a qa :: pc ++ [.node .plistDictElementEndTag z qz])] ∧ Q pc) := by
  have hs : ∀ r : List Char, ∃ x, a ++ c ++ z ++ r = "<dict".toList ++ x := by
    intro r
    obtain ⟨x, hx⟩ := tag_start ha (c ++ z ++ r)
    exact ⟨x, by rw [← hx]; simp⟩
  have hf : ∀ (r s e : Rule) (l : String) (k : Expr), (∀ x : List Char, ¬ ("<" ++ l).toList <+: "<dict".toList ++ x) → ∀ y, True → elementOf r s e l k (a ++ c ++ z ++ y) = .fail := by
    intro r s e l k h y _
    obtain ⟨x, hx⟩ := hs y
    exact element_fail (by rw [hx]; exact h x)
  have hb : ∀ (r : Rule) (l : String), (∀ x : List Char, ¬ l.toList <+: "<dict".toList ++ x) → ∀ y, True → rule r (tag l "/>") (a ++ c ++ z ++ y) = .fail := by
    intro r l h y _
    obtain ⟨x, hx⟩ := hs y
    exact bool_fail (by rw [hx]; exact h x)
  exact Takes.right (hf _ _ _ _ _ (by simp)) (Takes.right (hb _ _ (by simp)) (Takes.right (hb _ _ (by simp)) (Takes.right (hf _ _ _ _ _ (by simp))
      (Takes.right (hf _ _ _ _ _ (by simp)) (Takes.left (takes_element (label := "dict") ha hc hz))))))

theorem takes_objectAlt_bool {content dict : Expr} {t : List Char} (b : Bool) (h : Tag (if b then "<true" else "<false") "/>" t) : Takes (objectAlt content dict) t (fun _ => True)
      (fun ps => ∃ qs, ps = [.node (if b then .plistBooleanTrueElement else .plistBooleanFalseElement) t qs]) := by
  have hf : ∀ (r s e : Rule) (l : String) (k : Expr), (∀ x : List Char, ¬ ("<" ++ l).toList <+: (if b then "<true" else "<false").toList ++ x) → ∀ y, True → elementOf r s e l k (t ++ y) = .fail := by
    intro r s e l k h' y _
    obtain ⟨x, hx⟩ := tag_start h y
    exact element_fail (by rw [hx]; exact h' x)
  have ht := fun r => ((takes_tag h (.inr rfl)).rule r).mono (fun _ h => h) (fun ps (h : ∃ qs, ps = [Pair.node r t qs] ∧ True) => h.elim fun qs h => (⟨qs, h.1⟩ : ∃ qs, ps = [Pair.node r t qs]))
  cases b with
  | false => exact Takes.right (hf _ _ _ _ _ (by simp)) (Takes.left (ht _))
  | true =>
    refine Takes.right (hf _ _ _ _ _ (by simp)) (Takes.right ?_ (Takes.left (ht _)))
    intro y _
    obtain ⟨x, hx⟩ := tag_start h y
    exact bool_fail (by rw [hx]; simp)

end Keramics.XmlPlist
