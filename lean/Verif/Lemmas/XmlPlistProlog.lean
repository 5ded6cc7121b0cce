import Verif.Lemmas.XmlPlist

/-! Lemmas about the model of XML property lists: text, comments, processing instructions, CDATA sections and what comes before the root element. -/

namespace Keramics.XmlPlist

open Spec.Plist

theorem neg_ok {p : Expr} {s : List Char} (h : p s = .fail) : neg p s = .ok s [] := by simp [neg, h]

theorem neg_fail {p : Expr} {s s' : List Char} {ps} (h : p s = .ok s' ps) : neg p s = .fail := by simp [neg, h]

theorem seq_ok {p q : Expr} {s s' s'' : List Char} {ps qs} (h : p s = .ok s' ps) (h' : q s' = .ok s'' qs) : seq p q s = .ok s'' (ps ++ qs) := by simp [seq, h, h']

theorem rule_ok {p : Expr} {r : Rule} {t rest : List Char} {ps} (h : p (t ++ rest) = .ok rest ps) : rule r p (t ++ rest) = .ok rest [.node r t ps] := by
  unfold rule
  rw [h]
  simp

/-! ### Up to an end -/

/-- Characters up to an end. -/
abbrev skip (x : String) (f : Char → Bool) : Expr := star (neg (lit x) ~~ sat f)

theorem skip_one {x : String} {f : Char → Bool} {c : Char} {s : List Char} (hx : ¬ x.toList <+: c :: s) (hf : f c = true) :
    (neg (lit x) ~~ sat f) (c :: s) = .ok s [] := by
  simp [seq, neg, lit, hx, sat, hf]

theorem skip_stop {x : String} {f : Char → Bool} {s : List Char} (h : x.toList <+: s ∨ NoHead f s) : (neg (lit x) ~~ sat f) s = .fail := by
  unfold seq neg lit
  by_cases hx : x.toList <+: s
  · simp [hx]
  · have := sat_fail (h.resolve_left hx)
    simp [hx, this]

theorem skip_takes {x : String} {f : Char → Bool} {u rest : List Char} (hf : ∀ c ∈ u, f c = true) (hx : ∀ a b, u = a ++ b → b ≠ [] → ¬ x.toList <+: b ++ rest)
    (h : x.toList <+: rest ∨ NoHead f rest) : skip x f (u ++ rest) = .ok rest [] := by
  induction u with
  | nil => exact star_stop (skip_stop h)
  | cons c u ih =>
    have := ih (fun y hy => hf y (List.mem_cons_of_mem _ hy)) (fun a b hab hb => hx (c :: a) b (by rw [hab]; rfl) hb)
    exact star_step (skip_one (hx [] (c :: u) rfl (by simp)) (hf c List.mem_cons_self)) (by simp) this

theorem skip_spec (x : String) (f : Char → Bool) (s : List Char) : ∃ t rest, skip x f s = .ok rest [] ∧ s = t ++ rest ∧ (∀ c ∈ t, f c = true) ∧
    (∀ a b, t = a ++ b → b ≠ [] → ¬ x.toList <+: b ++ rest) ∧ (x.toList <+: rest ∨ NoHead f rest) := by
  induction s with
  | nil => exact ⟨[], [], star_stop (skip_stop (.inr nofun)), rfl, nofun, by
      intro a b hab hb; exact absurd (List.append_eq_nil_iff.1 hab.symm).2 hb, .inr nofun⟩
  | cons c s ih =>
    by_cases h : x.toList <+: c :: s ∨ NoHead f (c :: s)
    · exact ⟨[], c :: s, star_stop (skip_stop h), rfl, nofun, by
        intro a b hab hb; exact absurd (List.append_eq_nil_iff.1 hab.symm).2 hb, h⟩
    · rw [not_or] at h
      have hc : f c = true := by
        cases hc : f c with
        | true => rfl
        | false => exact absurd (noHead_cons.2 hc) h.2
      obtain ⟨t, rest, h1, h2, h3, h4, h5⟩ := ih
      refine ⟨c :: t, rest, star_step (skip_one h.1 hc) (by simp) h1, by rw [h2]; rfl, ?_, ?_, h5⟩
      · intro y hy
        rcases List.mem_cons.1 hy with rfl | hy
        · exact hc
        · exact h3 y hy
      · intro a b hab hb
        cases a with
        | nil =>
          simp only [List.nil_append] at hab
          rw [← hab, List.cons_append, ← h2]
          exact h.1
        | cons d a =>
          simp only [List.cons_append, List.cons.injEq] at hab
          exact h4 a b hab.2 hb

theorem skip_infix {x : List Char} (h0 : x ≠ []) {t rest : List Char} (h : ∀ a b, t = a ++ b → b ≠ [] → ¬ x <+: b ++ rest) : ¬ x <:+: t := by
  rintro ⟨a, b, rfl⟩
  refine h a (x ++ b) (by simp) (by simp [h0]) ⟨b ++ rest, by simp⟩

theorem gives_skip (n : Nat) (x : String) (h0 : x.toList ≠ []) (f : Char → Bool) : Gives n (skip x f) (fun t ps => ((∀ c ∈ t, f c = true) ∧ ¬ x.toList <:+: t) ∧ ps = []) := by
  intro s _
  obtain ⟨t, rest, h1, h2, h3, h4, _⟩ := skip_spec x f s
  exact .inl ⟨t, rest, [], h1, h2, ⟨h3, skip_infix h0 h4⟩, rfl⟩

theorem no_overlap_instruction {u : List Char} (h : ¬ "?>".toList <:+: u) (r : List Char) : ∀ a b, u = a ++ b → b ≠ [] → ¬ "?>".toList <+: b ++ ("?>".toList ++ r) := by
  rintro a b rfl hb hp
  match b, hb with
  | [c], _ => simp at hp
  | c :: d :: b, _ =>
    simp at hp
    obtain ⟨rfl, rfl⟩ := hp
    exact h ⟨a, b, by simp⟩

theorem no_overlap_cdata {u : List Char} (h : ¬ "]]>".toList <:+: u) (r : List Char) : ∀ a b, u = a ++ b → b ≠ [] → ¬ "]]>".toList <+: b ++ ("]]>".toList ++ r) := by
  rintro a b rfl hb hp
  match b, hb with
  | [c], _ => simp at hp
  | [c, d], _ => simp at hp
  | c :: d :: e :: b, _ =>
    simp at hp
    obtain ⟨rfl, rfl, rfl⟩ := hp
    exact h ⟨a, b, by simp⟩

theorem takeWhile_stop {f : Char → Bool} {t rest : List Char} (ht : ∀ c ∈ t, f c = true) (hr : NoHead f rest) : (t ++ rest).takeWhile f = t := by
  induction t with
  | nil =>
    cases rest with
    | nil => rfl
    | cons c rest => rw [List.nil_append, List.takeWhile_cons, hr c rfl]; rfl
  | cons c t ih =>
    rw [List.cons_append, List.takeWhile_cons, ht c List.mem_cons_self]
    simp [ih fun x hx => ht x (List.mem_cons_of_mem _ hx)]

theorem characterData_eq (s : List Char) : characterData s =
    if "]]>".toList <:+: s.takeWhile efcB then .fail else .ok (s.dropWhile efcB) [.node .characterData (s.takeWhile efcB) []] := by
  unfold characterData cdataSectionEnd
  rw [efc_eq]
  obtain ⟨t, rest, h1, h2, h3, h4, h5⟩ := skip_spec "]]>" efcB s
  by_cases hx : "]]>".toList <+: rest
  · obtain ⟨r, hr⟩ := hx
    rw [if_pos]
    · rw [← hr] at h1
      exact rule_fail (seq_fail (neg_fail (seq_ok h1 (lit_app _ _))))
    · rw [h2, ← hr, ← List.append_assoc, List.takeWhile_append_of_pos]
      · exact ⟨t, r.takeWhile efcB, by simp⟩
      · intro c hc
        rcases List.mem_append.1 hc with hc | hc
        · exact h3 c hc
        · simp at hc
          rcases hc with rfl | rfl | rfl <;> decide
  · have hn := h5.resolve_left hx
    have ht : s.takeWhile efcB = t := by rw [h2]; exact takeWhile_stop h3 hn
    have hd : s.dropWhile efcB = rest := by rw [h2]; exact dropWhile_stop h3 hn
    rw [ht, hd, if_neg (skip_infix (by simp) h4)]
    have := seq_ok (neg_ok (p := skip "]]>" efcB ~~ lit "]]>") (seq_fail_right h1 (lit_fail hx))) (star_sat efcB s)
    rw [hd] at this
    rw [h2] at this ⊢
    exact rule_ok this

theorem gives_characterData (n : Nat) : Gives n characterData (fun t ps => Text t ∧ ps = [.node .characterData t []]) := by
  intro s _
  rw [characterData_eq]
  by_cases h : "]]>".toList <:+: s.takeWhile efcB
  · exact .inr (if_pos h)
  · rw [if_neg h]
    refine .inl ⟨s.takeWhile efcB, s.dropWhile efcB, _, rfl, List.takeWhile_append_dropWhile.symm, ⟨?_, h⟩, rfl⟩
    intro c hc
    exact efcB_iff.1 (List.all_eq_true.1 (List.all_takeWhile (p := efcB) (l := s)) c hc)

theorem takes_characterData {t : List Char} (h : Text t) : Takes characterData t (NoHead efcB) (· = [.node .characterData t []]) := by
  intro rest hr
  rw [characterData_eq, takeWhile_stop (fun c hc => efcB_iff.2 (h.1 c hc)) hr, dropWhile_stop (fun c hc => efcB_iff.2 (h.1 c hc)) hr, if_neg h.2]
  exact ⟨_, rfl, rfl⟩

/-! ### Comments, processing instructions and CDATA sections -/

/-- A character but a dash. -/
def noDashB (c : Char) : Bool := ! (c == '-') && within characterRanges c

theorem noDashB_iff {c : Char} : noDashB c = true ↔ IsChar c ∧ c ≠ '-' := by
  unfold noDashB
  rw [Bool.and_eq_true, charB_iff]
  simp
  exact and_comm

theorem comment_eq : comment = rule .comment (lit "<!--" ~~ star (sat noDashB // (lit "-" ~~ sat noDashB)) ~~ lit "-->") := by
  have : (neg (lit "-") ~~ character) = sat noDashB := by
    rw [character_eq, dash_eq, neg_seq_sat]; rfl
  unfold comment
  rw [this]

theorem commentText_of {u ps} (hu : Reps (fun t ps => ((∃ c, t = [c] ∧ noDashB c = true) ∧ ps = []) ∨ ∃ a b pa pb, t = a ++ b ∧ ps = pa ++ pb ∧
    (a = "-".toList ∧ pa = []) ∧ (∃ c, b = [c] ∧ noDashB c = true) ∧ pb = []) u ps) : (∀ c ∈ u, IsChar c) ∧ ¬ "--".toList <:+: u ++ ['-'] := by
  constructor
  · induction hu with
    | nil => nofun
    | cons h1 _ ih =>
      rintro c hc
      rcases List.mem_append.1 hc with hc | hc
      · rcases h1 with ⟨⟨d, rfl, hd⟩, _⟩ | ⟨_, _, _, _, rfl, _, ⟨rfl, _⟩, ⟨d, rfl, hd⟩, _⟩
        · rw [List.mem_singleton.1 hc]; exact (noDashB_iff.1 hd).1
        · simp at hc
          rcases hc with rfl | rfl
          · exact charB_iff.1 (by decide)
          · exact (noDashB_iff.1 hd).1
      · exact ih c hc
  · induction hu with
    | nil => simp [List.infix_cons_iff]
    | cons h1 _ ih =>
      rcases h1 with ⟨⟨d, rfl, hd⟩, _⟩ | ⟨_, _, _, _, rfl, _, ⟨rfl, _⟩, ⟨d, rfl, hd⟩, _⟩
      · have hd' := (noDashB_iff.1 hd).2
        simp only [List.singleton_append, List.cons_append, List.infix_cons_iff, not_or]
        exact ⟨by simp; exact fun h => absurd h.symm hd', ih⟩
      · have hd' := (noDashB_iff.1 hd).2
        simp only [String.reduceToList, List.singleton_append, List.cons_append, List.nil_append, List.infix_cons_iff, not_or]
        exact ⟨by simp; exact fun h => absurd h.symm hd', by simp; exact fun h => absurd h.symm hd', ih⟩

theorem gives_comment (n : Nat) : Gives n comment (fun t ps => Comment t ∧ ∃ qs, ps = [.node .comment t qs]) := by
  rw [comment_eq]
  refine (Gives.rule .comment ((gives_lit n "<!--").seq ((((gives_sat n noDashB).alt ((gives_lit n "-").seq (gives_sat n noDashB))).star ?_).seq (gives_lit n "-->")))).mono ?_
  · rintro t ps (⟨⟨c, rfl, _⟩, _⟩ | ⟨a, b, _, _, rfl, _, ⟨rfl, _⟩, _⟩) <;> simp
  · rintro t ps ⟨qs, rfl, _, _, _, _, rfl, _, ⟨rfl, _⟩, u, _, pu, _, rfl, _, hu, rfl, _⟩
    refine ⟨⟨u, ?_, ?_, by simp⟩, qs, rfl⟩
    · exact (commentText_of hu).1
    · exact (commentText_of hu).2

theorem takes_commentText : ∀ u : List Char, (∀ c ∈ u, IsChar c) → ¬ "--".toList <:+: u ++ ['-'] →
    Takes (star (sat noDashB // (lit "-" ~~ sat noDashB))) u (fun r => ∃ r', r = '-' :: '-' :: r') (fun _ => True)
  | [], _, _ => by
    refine (takes_star_nil ?_).mono (fun _ h => h) (fun _ _ => trivial)
    rintro r ⟨r', rfl⟩
    exact alt_fail (sat_fail (noHead_cons.2 (by decide))) (seq_fail_right (lit_app "-" _) (sat_fail (noHead_cons.2 (by decide))))
  | c :: u, hc, hi => by
    by_cases hd : c = '-'
    · subst hd
      match u, hc, hi with
      | [], _, hi => exact absurd ⟨[], [], rfl⟩ hi
      | d :: w, hc, hi =>
        have hd : d ≠ '-' := by
          rintro rfl
          exact hi ⟨[], w ++ ['-'], by simp⟩
        have ih := takes_commentText w (fun x hx => hc x (List.mem_cons_of_mem _ (List.mem_cons_of_mem _ hx))) fun hw => hi (by
          obtain ⟨a, b, hab⟩ := hw
          exact ⟨'-' :: d :: a, b, by simp only [List.cons_append]; rw [hab]⟩)
        have h1 : Takes (sat noDashB // (lit "-" ~~ sat noDashB)) ['-', d] (fun _ => True) (fun _ => True) :=
          Takes.right (fun r _ => sat_fail (noHead_cons.2 (by decide)))
            ((takes_lit "-" (fun _ => True)).seqT (takes_sat (noDashB_iff.2 ⟨hc d (by simp), hd⟩) (fun _ => True)) (fun _ _ => trivial))
        exact h1.stepT (by simp) ih (fun _ _ => trivial)
    · have ih := takes_commentText u (fun x hx => hc x (List.mem_cons_of_mem _ hx)) fun hw => hi (by
          obtain ⟨a, b, hab⟩ := hw
          exact ⟨c :: a, b, by simp only [List.cons_append]; rw [hab]⟩)
      exact (Takes.left (takes_sat (noDashB_iff.2 ⟨hc c (by simp), hd⟩) (fun _ => True))).stepT (by simp) ih (fun _ _ => trivial)

theorem takes_comment {t : List Char} (h : Comment t) : Takes comment t (fun _ => True) (fun ps => ∃ qs, ps = [.node .comment t qs]) := by
  obtain ⟨u, h1, h2, rfl⟩ := h
  rw [comment_eq]
  have := ((takes_lit "<!--" (fun _ => True)).seqT ((takes_commentText u h1 h2).seqT (takes_lit "-->" (fun _ => True)) (fun r _ => ⟨_, rfl⟩)) (fun _ _ => trivial)).rule .comment
  rw [← List.append_assoc] at this
  exact this.mono (fun _ h => h) fun ps ⟨qs, h, _⟩ => ⟨qs, h⟩

theorem gives_cdata (n : Nat) : Gives n cdataSection (fun t ps => Cdata t ∧ ∃ qs, ps = [.node .cdataSection t qs]) := by
  unfold cdataSection cdata cdataSectionEnd
  rw [character_eq]
  refine (Gives.rule .cdataSection ((gives_lit n "<![CDATA[").seq ((Gives.rule .cdata (gives_skip n "]]>" (by simp) (within characterRanges))).seq (gives_lit n "]]>")))).mono ?_
  rintro t ps ⟨qs, rfl, _, _, _, _, rfl, _, ⟨rfl, _⟩, u, _, pu, _, rfl, _, ⟨_, _, hu, _⟩, rfl, _⟩
  exact ⟨⟨u, fun c hc => charB_iff.1 (hu.1 c hc), hu.2, by simp⟩, qs, rfl⟩

theorem takes_cdata {t : List Char} (h : Cdata t) : Takes cdataSection t (fun _ => True) (fun ps => ∃ qs, ps = [.node .cdataSection t qs]) := by
  obtain ⟨u, h1, h2, rfl⟩ := h
  unfold cdataSection cdata cdataSectionEnd
  rw [character_eq]
  have hs : Takes (skip "]]>" (within characterRanges)) u (fun r => ∃ r', r = "]]>".toList ++ r') (fun _ => True) := by
    rintro r ⟨r', rfl⟩
    exact ⟨[], skip_takes (fun c hc => charB_iff.2 (h1 c hc)) (no_overlap_cdata h2 r') (.inl ⟨r', rfl⟩), trivial⟩
  have := ((takes_lit "<![CDATA[" (fun _ => True)).seqT ((hs.ruleT .cdata).seqT (takes_lit "]]>" (fun _ => True)) (fun r _ => ⟨r, rfl⟩)) (fun _ _ => trivial)).rule .cdataSection
  rw [← List.append_assoc] at this
  exact this.mono (fun _ h => h) fun ps ⟨qs, h, _⟩ => ⟨qs, h⟩

/-- The start that a name of processing instructions must not have. -/
def xmlStart : Expr := (lit "X" // lit "x") ~~ (lit "M" // lit "m") ~~ (lit "L" // lit "l")

/-- No name that starts with `xml`. -/
def NoXml (n : List Char) : Prop := ∀ x m l v, n = x :: m :: l :: v → ¬ (x ∈ ['X', 'x'] ∧ m ∈ ['M', 'm'] ∧ l ∈ ['L', 'l'])

theorem xmlStart_fail (s : List Char) : xmlStart s = .fail ↔ NoXml s := by
  unfold xmlStart
  rw [lit_eq "X" 'X' rfl, lit_eq "x" 'x' rfl, lit_eq "M" 'M' rfl, lit_eq "m" 'm' rfl, lit_eq "L" 'L' rfl, lit_eq "l" 'l' rfl, alt_sat, alt_sat, alt_sat]
  unfold NoXml
  match s with
  | [] => simp [seq, sat]
  | [a] =>
    by_cases h : a = 'X' ∨ a = 'x' <;> simp [seq, sat, h]
  | [a, b] =>
    by_cases h : a = 'X' ∨ a = 'x' <;> by_cases h' : b = 'M' ∨ b = 'm' <;> simp [seq, sat, h, h']
  | a :: b :: c :: s =>
    have he : (∀ x m l v, a :: b :: c :: s = x :: m :: l :: v → ¬ (x ∈ ['X', 'x'] ∧ m ∈ ['M', 'm'] ∧ l ∈ ['L', 'l'])) ↔
        ¬ ((a = 'X' ∨ a = 'x') ∧ (b = 'M' ∨ b = 'm') ∧ (c = 'L' ∨ c = 'l')) := by
      constructor
      · intro h
        simpa using h a b c s rfl
      · rintro h x m l v hv
        simp only [List.cons.injEq] at hv
        obtain ⟨rfl, rfl, rfl, _⟩ := hv
        simpa using h
    rw [he]
    by_cases h : a = 'X' ∨ a = 'x'
    · by_cases h' : b = 'M' ∨ b = 'm'
      · by_cases h'' : c = 'L' ∨ c = 'l'
        · simp only [seq, sat, h, h', h'', Bool.or_eq_true, beq_iff_eq, if_true, and_self, not_true]
          simp
        · simp only [seq, sat, h, h', h'', Bool.or_eq_true, beq_iff_eq, if_true, if_false, and_self, and_false, not_false_iff]
      · simp only [seq, sat, h, h', Bool.or_eq_true, beq_iff_eq, if_true, if_false, and_self, and_false, false_and, not_false_iff]
    · simp only [seq, sat, h, Bool.or_eq_true, beq_iff_eq, if_true, if_false, and_self, and_false, false_and, not_false_iff]

theorem xmlStart_ne (s : List Char) : xmlStart s ≠ .endless := by
  unfold xmlStart
  rw [lit_eq "X" 'X' rfl, lit_eq "x" 'x' rfl, lit_eq "M" 'M' rfl, lit_eq "m" 'm' rfl, lit_eq "L" 'L' rfl, lit_eq "l" 'l' rfl, alt_sat, alt_sat, alt_sat]
  have := ((gives_sat (s.length + 1) (fun c => c == 'X' || c == 'x')).seq ((gives_sat (s.length + 1) (fun c => c == 'M' || c == 'm')).seq (gives_sat (s.length + 1) (fun c => c == 'L' || c == 'l')))) s (by omega)
  rcases this with ⟨t, rest, ps, h, _⟩ | h <;> rw [h] <;> nofun

theorem noXml_append {n rest : List Char} (hn : n ≠ []) (h : NoXml n) (hr : NoHead (within nameRanges) rest) : NoXml (n ++ rest) := by
  have hm : ∀ m ∈ ['M', 'm'], within nameRanges m = true := by decide
  have hl : ∀ m ∈ ['L', 'l'], within nameRanges m = true := by decide
  rintro x m l v he ⟨h1, h2, h3⟩
  match n, hn with
  | [a], _ =>
    simp only [List.singleton_append, List.cons.injEq] at he
    have := hr m (by rw [he.2]; rfl)
    rw [hm m h2] at this
    cases this
  | [a, b], _ =>
    simp only [List.cons_append, List.nil_append, List.cons.injEq] at he
    have := hr l (by rw [he.2.2]; rfl)
    rw [hl l h3] at this
    cases this
  | a :: b :: c :: n, _ =>
    simp only [List.cons_append, List.cons.injEq] at he
    obtain ⟨rfl, rfl, rfl, _⟩ := he
    exact h a b c n rfl ⟨h1, h2, h3⟩

theorem noXml_left {n rest : List Char} (h : NoXml (n ++ rest)) : NoXml n := by
  rintro x m l v rfl
  exact h x m l (v ++ rest) rfl

theorem gives_target (n : Nat) : Gives n processingInstructionsTarget (fun t _ => Name t ∧ NoXml t) := by
  suffices hh : Gives n (neg xmlStart ~~ name) (fun t _ => Name t ∧ NoXml t) from
    (hh.rule .processingInstructionsTarget).mono fun t ps ⟨_, _, h⟩ => h
  intro s hs
  cases hx : xmlStart s with
  | ok r ps => right; exact seq_fail (by simp [neg, hx])
  | endless => exact absurd hx (xmlStart_ne s)
  | fail =>
    have hneg : neg xmlStart s = .ok s [] := by simp [neg, hx]
    rcases gives_name n s hs with ⟨t, rest, ps, h1, h2, h3⟩ | h
    · refine .inl ⟨t, rest, ps, by simp [seq, hneg, h1], h2, h3, ?_⟩
      rw [h2] at hx
      exact noXml_left ((xmlStart_fail _).1 hx)
    · exact .inr (seq_fail_right hneg h)

theorem takes_target {t : List Char} (h : Name t) (hx : NoXml t) : Takes processingInstructionsTarget t (NoHead (within nameRanges)) (fun _ => True) := by
  refine Takes.ruleT _ (Q := fun _ => True) ?_
  intro rest hr
  obtain ⟨ps, h1, _⟩ := takes_name h rest hr
  have h0 : t ≠ [] := by obtain ⟨c, u, rfl, _⟩ := h; simp
  have := (xmlStart_fail _).2 (noXml_append h0 hx hr)
  have hneg : neg xmlStart (t ++ rest) = .ok (t ++ rest) [] := by simp [neg, this]
  exact ⟨ps, by
    show seq (neg xmlStart) name (t ++ rest) = _
    simp [seq, hneg, h1], trivial⟩

theorem space_isChar {c : Char} (h : IsSpace c) : IsChar c := by
  rcases h with rfl | rfl | rfl | rfl <;> exact charB_iff.1 (by decide)

theorem infix_skip {d : List Char} : ∀ g : List Char, Spaces g → "?>".toList <:+: g ++ d → "?>".toList <:+: d
  | [], _, h => h
  | c :: g, hg, h => by
    rw [List.cons_append, List.infix_cons_iff] at h
    refine infix_skip g (fun x hx => hg x (List.mem_cons_of_mem _ hx)) (h.resolve_left ?_)
    have : c ≠ '?' := by rintro rfl; exact absurd (spaceB_iff.2 (hg '?' List.mem_cons_self)) (by decide)
    intro hp
    simp at hp
    exact this hp.1.symm

theorem gives_instruction (n : Nat) : Gives n processingInstructions (fun t ps => Instruction t ∧ ∃ qs, ps = [.node .processingInstructions t qs]) := by
  unfold processingInstructions processingInstructionsData
  rw [character_eq]
  refine (Gives.rule .processingInstructions ((gives_lit n "<?").seq ((gives_target n).seq
    (((gives_ws n).seq (Gives.rule .processingInstructionsData (gives_skip n "?>" (by simp) (within characterRanges)))).opt.seq (gives_lit n "?>"))))).mono ?_
  rintro t ps ⟨qs, rfl, _, _, _, _, rfl, _, ⟨rfl, _⟩, nm, _, _, _, rfl, _, ⟨h1, h2⟩, u, _, _, _, rfl, _, hu, rfl, _⟩
  refine ⟨⟨nm, u, h1, h2, ?_⟩, qs, rfl⟩
  rcases hu with ⟨g, d, _, _, rfl, _, ⟨hg, _⟩, _, _, hd, _⟩ | ⟨rfl, _⟩
  · refine ⟨?_, ?_, fun h => hd.2 (infix_skip g hg.2 h), by simp⟩
    · intro c hc
      cases g with
      | nil => exact absurd rfl hg.1
      | cons x g => cases hc; exact hg.2 _ List.mem_cons_self
    · intro c hc
      rcases List.mem_append.1 hc with hc | hc
      · exact space_isChar (hg.2 c hc)
      · exact charB_iff.1 (hd.1 c hc)
  · exact ⟨nofun, nofun, by simp, by simp⟩

theorem takes_instruction {t : List Char} (h : Instruction t) : Takes processingInstructions t (fun _ => True) (fun ps => ∃ qs, ps = [.node .processingInstructions t qs]) := by
  obtain ⟨n, u, h1, h2, h3, h4, h5, rfl⟩ := h
  unfold processingInstructions processingInstructionsData
  rw [character_eq]
  have hu : Takes (opt (whiteSpace ~~ rule .processingInstructionsData (skip "?>" (within characterRanges)))) u (fun r => ∃ r', r = "?>".toList ++ r') (fun _ => True) := by
    by_cases h0 : u = []
    · subst h0
      refine (takes_none ?_).mono (fun _ h => h) (fun _ _ => trivial)
      rintro r ⟨r', rfl⟩
      exact seq_fail (ws_fail (noHead_cons.2 (by decide)))
    · have hg : Gap (u.takeWhile spaceB) := by
        refine ⟨?_, fun c hc => spaceB_iff.1 (List.all_eq_true.1 (List.all_takeWhile (p := spaceB) (l := u)) c hc)⟩
        cases u with
        | nil => exact absurd rfl h0
        | cons c u => rw [List.takeWhile_cons, spaceB_iff.2 (h3 c rfl)]; simp
      have hud : u = u.takeWhile spaceB ++ u.dropWhile spaceB := List.takeWhile_append_dropWhile.symm
      have hd5 : ¬ "?>".toList <:+: u.dropWhile spaceB := by
        intro hi
        exact h5 (hi.trans (List.dropWhile_suffix _).isInfix)
      have hs : Takes (skip "?>" (within characterRanges)) (u.dropWhile spaceB) (fun r => ∃ r', r = "?>".toList ++ r') (fun _ => True) := by
        rintro r ⟨r', rfl⟩
        exact ⟨[], skip_takes (fun c hc => charB_iff.2 (h4 c ((List.dropWhile_suffix _).subset hc))) (no_overlap_instruction hd5 r') (.inl ⟨r', rfl⟩), trivial⟩
      have := ((takes_ws hg).seqT (hs.ruleT .processingInstructionsData) (by
        rintro r ⟨r', rfl⟩
        cases hd : u.dropWhile spaceB with
        | nil => exact noHead_cons.2 (by decide)
        | cons c w =>
          refine noHead_cons.2 ?_
          have := List.head?_dropWhile_not spaceB u
          rw [hd] at this
          simpa using this)).some
      rw [← hud] at this
      exact this
  have := ((takes_lit "<?" (fun _ => True)).seqT ((takes_target h1 h2).seqT (hu.seqT (takes_lit "?>" (fun _ => True)) (fun r _ => ⟨r, rfl⟩)) (by
      intro r _
      cases u with
      | nil => exact noHead_cons.2 (by decide)
      | cons c u => exact noHead_cons.2 (space_not_name (h3 c rfl)))) (fun _ _ => trivial)).rule .processingInstructions
  rw [← List.append_assoc, ← List.append_assoc] at this
  exact this.mono (fun _ h => h) fun ps ⟨qs, h, _⟩ => ⟨qs, h⟩

/-! ### Between elements -/

theorem misc_spaces {g u : List Char} (hg : Spaces g) (hu : Misc u) : Misc (g ++ u) := by
  induction g with
  | nil => exact hu
  | cons c g ih => exact .space c _ (hg c List.mem_cons_self) (ih fun x hx => hg x (List.mem_cons_of_mem _ hx))

theorem comment_head {t : List Char} (h : Comment t) : ∃ v, t = '<' :: '!' :: '-' :: '-' :: v := by
  obtain ⟨u, _, _, rfl⟩ := h
  exact ⟨_, rfl⟩

theorem instruction_head {t : List Char} (h : Instruction t) : ∃ v, t = '<' :: '?' :: v := by
  obtain ⟨n, u, _, _, _, _, _, rfl⟩ := h
  exact ⟨_, rfl⟩

theorem gives_misc (n : Nat) : Gives n (star miscellaneous) (fun t ps => Misc t ∧ ∀ p ∈ ps, p.rule = .miscellaneous) := by
  refine ((Gives.rule .miscellaneous ((gives_comment n).alt ((gives_instruction n).alt (gives_ws n)))).star ?_).mono ?_
  · rintro t ps ⟨qs, rfl, ⟨h, _⟩ | ⟨h, _⟩ | ⟨h, _⟩⟩
    · obtain ⟨v, rfl⟩ := comment_head h; simp
    · obtain ⟨v, rfl⟩ := instruction_head h; simp
    · exact h.1
  · intro t ps h
    induction h with
    | nil => exact ⟨.nil, nofun⟩
    | cons h1 _ ih =>
      obtain ⟨qs, rfl, h1⟩ := h1
      refine ⟨?_, ?_⟩
      · rcases h1 with ⟨h, _⟩ | ⟨h, _⟩ | ⟨h, _⟩
        · exact .comment _ _ h ih.1
        · exact .instruction _ _ h ih.1
        · exact misc_spaces h.2 ih.1
      · intro p hp
        rcases List.mem_append.1 hp with hp | hp
        · rw [List.mem_singleton.1 hp]; rfl
        · exact ih.2 p hp

/-- Nothing of what may be between elements is next. -/
def MiscEnd (r : List Char) : Prop := NoHead spaceB r ∧ ¬ "<!--".toList <+: r ∧ ¬ "<?".toList <+: r

theorem misc_fail {r : List Char} (h : MiscEnd r) : miscellaneous r = .fail :=
  rule_fail (alt_fail (rule_fail (seq_fail (lit_fail h.2.1))) (alt_fail (rule_fail (seq_fail (lit_fail h.2.2))) (ws_fail h.1)))

theorem takes_misc_join {g u : List Char} (hg : Spaces g) {Q : List Pair → Prop} (hu : Takes (star miscellaneous) u MiscEnd Q) (hq : ∀ p qs, Q qs → p.rule = .miscellaneous → Q (p :: qs))
    (hh : ∀ r, MiscEnd r → NoHead spaceB (u ++ r)) : Takes (star miscellaneous) (g ++ u) MiscEnd Q := by
  by_cases h0 : g = []
  · subst h0; exact hu
  · have hno : ∀ r : List Char, ¬ '<' = (g ++ r).headD 'x' := by
      intro r
      cases g with
      | nil => exact absurd rfl h0
      | cons c g =>
        intro he
        have : c = '<' := he.symm
        have := spaceB_iff.2 (hg c List.mem_cons_self)
        subst c
        exact absurd this (by decide)
    have hl : ∀ x : String, x.toList.head? = some '<' → ∀ r : List Char, lit x (g ++ r) = .fail := by
      intro x hx r
      refine lit_fail ?_
      rintro ⟨v, hv⟩
      refine hno r ?_
      rw [← hv]
      cases hx' : x.toList with
      | nil => rw [hx'] at hx; cases hx
      | cons c w => rw [hx'] at hx; cases hx; rfl
    have h1 : Takes miscellaneous g (NoHead spaceB) (fun ps => ∃ qs, ps = [.node .miscellaneous g qs] ∧ True) := by
      refine Takes.rule _ (Takes.right (fun r _ => rule_fail (seq_fail (hl "<!--" rfl r))) (Takes.right (fun r _ => rule_fail (seq_fail (hl "<?" rfl r))) ?_))
      exact (takes_ws ⟨h0, hg⟩).mono (fun _ h => h) (fun _ _ => trivial)
    exact h1.step h0 hu hh (by rintro ps qs ⟨rs, rfl, _⟩ hqs; exact hq _ _ hqs rfl)

theorem takes_misc {t : List Char} (h : Misc t) : Takes (star miscellaneous) t MiscEnd (fun ps => ∀ p ∈ ps, p.rule = .miscellaneous) := by
  have hq : ∀ (p : Pair) (qs : List Pair), (∀ p ∈ qs, p.rule = .miscellaneous) → p.rule = .miscellaneous → ∀ x ∈ p :: qs, x.rule = .miscellaneous := by
    intro p qs h1 h2 x hx
    rcases List.mem_cons.1 hx with rfl | hx
    · exact h2
    · exact h1 x hx
  suffices hh : ∃ g u, t = g ++ u ∧ Spaces g ∧ Takes (star miscellaneous) u MiscEnd (fun ps => ∀ p ∈ ps, p.rule = .miscellaneous) ∧ ∀ r, MiscEnd r → NoHead spaceB (u ++ r) by
    obtain ⟨g, u, rfl, h1, h2, h3⟩ := hh
    exact takes_misc_join h1 h2 hq h3
  induction h with
  | nil => exact ⟨[], [], rfl, nofun, (takes_star_nil fun r hr => misc_fail hr).mono (fun _ h => h) (by rintro _ rfl; nofun), fun r hr => hr.1⟩
  | space c t hc _ ih =>
    obtain ⟨g, u, rfl, h1, h2, h3⟩ := ih
    refine ⟨c :: g, u, rfl, ?_, h2, h3⟩
    intro x hx
    rcases List.mem_cons.1 hx with rfl | hx
    · exact hc
    · exact h1 x hx
  | comment w t hw _ ih =>
    obtain ⟨g, u, rfl, h1, h2, h3⟩ := ih
    obtain ⟨v, hv⟩ := comment_head hw
    refine ⟨[], w ++ (g ++ u), rfl, nofun, ?_, ?_⟩
    · refine (Takes.rule .miscellaneous (takes_comment hw).left).step (by rw [hv]; simp) (takes_misc_join h1 h2 hq h3) (fun _ _ => trivial) ?_
      rintro ps qs ⟨rs, rfl, _⟩ hqs
      exact hq _ _ hqs rfl
    · intro r _
      rw [hv]
      exact noHead_cons.2 (by decide)
  | instruction w t hw _ ih =>
    obtain ⟨g, u, rfl, h1, h2, h3⟩ := ih
    obtain ⟨v, hv⟩ := instruction_head hw
    refine ⟨[], w ++ (g ++ u), rfl, nofun, ?_, ?_⟩
    · refine (Takes.rule .miscellaneous (Takes.right ?_ (takes_instruction hw).left)).step (by rw [hv]; simp) (takes_misc_join h1 h2 hq h3) (fun _ _ => trivial) ?_
      · intro r _
        rw [hv]
        exact rule_fail (seq_fail (lit_fail (by simp)))
      · rintro ps qs ⟨rs, rfl, _⟩ hqs
        exact hq _ _ hqs rfl
    · intro r _
      rw [hv]
      exact noHead_cons.2 (by decide)

/-! ### The declaration -/

/-- White space, a word, the equals sign and a value in quotes of the one or the other kind. -/
abbrev setting (word a b : String) (v : Expr) : Expr := whiteSpace ~~ lit word ~~ equals ~~ ((lit a ~~ v ~~ lit a) // (lit b ~~ v ~~ lit b))

/-- A quote is next. -/
def QuoteNext (r : List Char) : Prop := ∃ q r', (q = '"' ∨ q = '\'') ∧ r = q :: r'

theorem gives_setting (n : Nat) {word a b : String} {v : Expr} {V : List Char → Prop} (hab : (a = "'" ∧ b = "\"") ∨ (a = "\"" ∧ b = "'"))
    (hv : Gives n v (fun t _ => V t)) : Gives n (setting word a b v) (fun t _ => Setting word V t) := by
  refine ((gives_ws n).seq ((gives_lit n word).seq ((gives_equals n).seq (((gives_lit n a).seq (hv.seq (gives_lit n a))).alt ((gives_lit n b).seq (hv.seq (gives_lit n b))))))).mono ?_
  rintro t ps ⟨g, _, _, _, rfl, _, ⟨h1, _⟩, _, _, _, _, rfl, _, ⟨rfl, _⟩, e, w, _, _, rfl, _, h2, h3⟩
  refine ⟨g, e, w, h1, h2, ?_, by simp⟩
  rcases h3 with ⟨_, _, _, _, rfl, _, ⟨rfl, _⟩, u, _, _, _, rfl, _, h4, rfl, _⟩ | ⟨_, _, _, _, rfl, _, ⟨rfl, _⟩, u, _, _, _, rfl, _, h4, rfl, _⟩
  · rcases hab with ⟨rfl, rfl⟩ | ⟨rfl, rfl⟩
    · exact ⟨'\'', u, .inr rfl, h4, rfl⟩
    · exact ⟨'"', u, .inl rfl, h4, rfl⟩
  · rcases hab with ⟨rfl, rfl⟩ | ⟨rfl, rfl⟩
    · exact ⟨'"', u, .inl rfl, h4, rfl⟩
    · exact ⟨'\'', u, .inr rfl, h4, rfl⟩

theorem takes_inQuotes {a b : String} {v : Expr} {V : List Char → Prop} (hab : (a = "'" ∧ b = "\"") ∨ (a = "\"" ∧ b = "'"))
    (hv : ∀ t, V t → Takes v t QuoteNext (fun _ => True)) {t : List Char} (h : InQuotes (fun _ => V) t) :
    Takes ((lit a ~~ v ~~ lit a) // (lit b ~~ v ~~ lit b)) t (fun _ => True) (fun _ => True) := by
  obtain ⟨q, u, hq, hu, rfl⟩ := h
  have key : ∀ x : String, ∀ c, x.toList = [c] → (c = '"' ∨ c = '\'') → Takes (lit x ~~ v ~~ lit x) (c :: u ++ [c]) (fun _ => True) (fun _ => True) := by
    intro x c hx hc
    have hl := takes_lit x (fun _ => True)
    rw [hx] at hl
    exact hl.seqT ((hv u hu).seqT hl (fun r _ => ⟨c, r, hc, rfl⟩)) (fun _ _ => trivial)
  rcases hab with ⟨rfl, rfl⟩ | ⟨rfl, rfl⟩
  · rcases hq with rfl | rfl
    · exact Takes.right (fun r _ => seq_fail (lit_fail (by simp))) (key "\"" '"' rfl (.inl rfl))
    · exact Takes.left (key "'" '\'' rfl (.inr rfl))
  · rcases hq with rfl | rfl
    · exact Takes.left (key "\"" '"' rfl (.inl rfl))
    · exact Takes.right (fun r _ => seq_fail (lit_fail (by simp))) (key "'" '\'' rfl (.inr rfl))

theorem takes_setting {word a b : String} {v : Expr} {V : List Char → Prop} (hab : (a = "'" ∧ b = "\"") ∨ (a = "\"" ∧ b = "'"))
    (hv : ∀ t, V t → Takes v t QuoteNext (fun _ => True)) (hw : ∀ r, NoHead spaceB (word.toList ++ r)) {t : List Char} (h : Setting word V t) :
    Takes (setting word a b v) t (fun _ => True) (fun _ => True) := by
  obtain ⟨g, e, w, h1, h2, h3, rfl⟩ := h
  have := (takes_ws h1).seqT ((takes_lit word (fun _ => True)).seqT ((takes_equals h2).seqT (takes_inQuotes hab hv h3)
    (fun r _ => quotes_noHead h3 r (by decide) (by decide))) (fun _ _ => trivial)) (fun r _ => by rw [List.append_assoc]; exact hw _)
  simpa only [List.append_assoc] using this

theorem setting_fail {word : String} {p : Expr} {g x : List Char} (hg : Spaces g) (hx : NoHead spaceB x) (hw : ¬ word.toList <+: x) :
    (whiteSpace ~~ lit word ~~ p) (g ++ x) = .fail := by
  by_cases h0 : g = []
  · subst h0; exact seq_fail (ws_fail hx)
  · obtain ⟨ps, h, -⟩ := takes_ws ⟨h0, hg⟩ x hx
    exact seq_fail_right h (seq_fail (lit_fail hw))

theorem gives_version (n : Nat) : Gives n versionNumber (fun t _ => Version t) := by
  unfold versionNumber
  rw [one_eq]
  refine (Gives.rule .versionNumber ((gives_lit n "1.").seq (gives_plus_sat n _))).mono ?_
  rintro t ps ⟨_, _, _, d, _, _, rfl, _, ⟨rfl, _⟩, h, _⟩
  exact ⟨d, h.1, fun c hc => digitB_iff.1 (h.2 c hc), rfl⟩

theorem quoteNext_noHead {f : Char → Bool} {r : List Char} (h : QuoteNext r) (h1 : f '"' = false) (h2 : f '\'' = false) : NoHead f r := by
  obtain ⟨q, r', rfl | rfl, rfl⟩ := h
  · exact noHead_cons.2 h1
  · exact noHead_cons.2 h2

theorem takes_version (t : List Char) (h : Version t) : Takes versionNumber t QuoteNext (fun _ => True) := by
  obtain ⟨d, h0, hd, rfl⟩ := h
  unfold versionNumber
  rw [one_eq]
  exact (((takes_lit "1." (fun _ => True)).seqT (takes_plus_sat h0 fun c hc => digitB_iff.2 (hd c hc)) (fun _ _ => trivial)).ruleT _).mono
    (fun r hr => quoteNext_noHead hr (by decide) (by decide)) (fun _ h => h)

theorem gives_encoding (n : Nat) : Gives n encodingName (fun t _ => Encoding t) := by
  unfold encodingName
  rw [one_eq, one_eq]
  refine (Gives.rule .encodingName ((gives_sat n _).seq (gives_star_sat n _))).mono ?_
  rintro t ps ⟨_, _, _, u, _, _, rfl, _, ⟨⟨c, rfl, hc⟩, _⟩, h, _⟩
  exact ⟨c, u, rfl, letterB_iff.1 hc, fun x hx => encodingB_iff.1 (h x hx)⟩

theorem takes_encoding (t : List Char) (h : Encoding t) : Takes encodingName t QuoteNext (fun _ => True) := by
  obtain ⟨c, u, rfl, hc, hu⟩ := h
  unfold encodingName
  rw [one_eq, one_eq]
  exact (((takes_sat (letterB_iff.2 hc) (fun _ => True)).seqT (takes_star_sat fun x hx => encodingB_iff.2 (hu x hx)) (fun _ _ => trivial)).ruleT _).mono
    (fun r hr => quoteNext_noHead hr (by decide) (by decide)) (fun _ h => h)

theorem gives_yesNo (n : Nat) : Gives n (lit "yes" // lit "no") (fun t _ => t = "yes".toList ∨ t = "no".toList) :=
  ((gives_lit n "yes").alt (gives_lit n "no")).mono (by
    rintro t ps (⟨h, _⟩ | ⟨h, _⟩)
    · exact .inl h
    · exact .inr h)

theorem takes_yesNo (t : List Char) (h : t = "yes".toList ∨ t = "no".toList) : Takes (lit "yes" // lit "no") t QuoteNext (fun _ => True) := by
  rcases h with rfl | rfl
  · exact (takes_lit "yes" _).left.mono (fun _ h => h) (fun _ _ => trivial)
  · exact (Takes.right (fun r _ => lit_fail (by simp)) (takes_lit "no" _)).mono (fun _ h => h) (fun _ _ => trivial)

theorem Gives.ruleT {n p} {P : List Char → Prop} (r : Rule) (hp : Gives n p (fun t _ => P t)) : Gives n (XmlPlist.rule r p) (fun t _ => P t) :=
  (hp.rule r).mono fun _ _ ⟨_, _, h⟩ => h

theorem Gives.optT {n p} {P : List Char → Prop} (hp : Gives n p (fun t _ => P t)) : Gives n (XmlPlist.opt p) (fun t _ => Maybe P t) :=
  hp.opt.mono fun _ _ h => h.elim .inr fun h => .inl h.1

theorem gives_declaration (n : Nat) : Gives n xmlDeclaration (fun t _ => Declaration t) := by
  refine Gives.ruleT _ (Gives.mono ((gives_lit n "<?xml").seq (((gives_setting n (.inl ⟨rfl, rfl⟩) (gives_version n)).ruleT .versionInformation).seq
    (((gives_setting n (.inr ⟨rfl, rfl⟩) (gives_encoding n)).ruleT .encodingDeclaration).optT.seq
      (((gives_setting n (.inl ⟨rfl, rfl⟩) (gives_yesNo n)).ruleT .standaloneDocumentDeclaration).optT.seq ((gives_ows n).seq (gives_lit n "?>")))))) ?_)
  rintro t ps ⟨_, _, _, _, rfl, _, ⟨rfl, _⟩, v, _, _, _, rfl, _, h1, e, _, _, _, rfl, _, h2, a, _, _, _, rfl, _, h3, s, _, _, _, rfl, _, ⟨h4, _⟩, rfl, _⟩
  exact ⟨v, e, a, s, h1, h2, h3, h4, by simp⟩

theorem takes_declaration {t : List Char} (h : Declaration t) : Takes xmlDeclaration t (fun _ => True) (fun _ => True) := by
  obtain ⟨v, e, a, s, h1, h2, h3, h4, rfl⟩ := h
  have hend : ∀ r : List Char, True → NoHead spaceB ("?>".toList ++ r) := fun r _ => noHead_cons.2 (by decide)
  have hs := (takes_ows h4).seqT (takes_lit "?>" (fun _ => True)) hend
  have ha : Takes (opt standaloneDocumentDeclaration ~~ opt whiteSpace ~~ lit "?>") (a ++ (s ++ "?>".toList)) (fun _ => True) (fun _ => True) := by
    rcases h3 with rfl | h3
    · refine (takes_none (F := fun r => ∃ r', r = s ++ "?>".toList ++ r') ?_).seqT hs fun r _ => ⟨r, rfl⟩
      rintro r ⟨r', rfl⟩
      rw [List.append_assoc]
      exact rule_fail (setting_fail h4 (hend _ trivial) (by simp))
    · exact ((takes_setting (.inl ⟨rfl, rfl⟩) takes_yesNo (fun r => noHead_cons.2 (by decide)) h3).ruleT .standaloneDocumentDeclaration).some.seqT hs (fun _ _ => trivial)
  have he : Takes (opt encodingDeclaration ~~ opt standaloneDocumentDeclaration ~~ opt whiteSpace ~~ lit "?>") (e ++ (a ++ (s ++ "?>".toList))) (fun _ => True) (fun _ => True) := by
    rcases h2 with rfl | h2
    · refine (takes_none (F := fun r => ∃ r', r = a ++ (s ++ "?>".toList) ++ r') ?_).seqT ha fun r _ => ⟨r, rfl⟩
      rintro r ⟨r', rfl⟩
      rcases h3 with rfl | ⟨g, e', w, hg, _, _, rfl⟩
      · rw [List.nil_append, List.append_assoc]
        exact rule_fail (setting_fail h4 (hend _ trivial) (by simp))
      · rw [List.append_assoc, List.append_assoc, List.append_assoc, List.append_assoc]
        exact rule_fail (setting_fail hg.2 (noHead_cons.2 (by decide)) (by simp))
    · exact ((takes_setting (.inr ⟨rfl, rfl⟩) takes_encoding (fun r => noHead_cons.2 (by decide)) h2).ruleT .encodingDeclaration).some.seqT ha (fun _ _ => trivial)
  have hv := (takes_setting (word := "version") (a := "'") (b := "\"") (.inl ⟨rfl, rfl⟩) takes_version (fun r => noHead_cons.2 (by decide)) h1).ruleT .versionInformation
  have := ((takes_lit "<?xml" (fun _ => True)).seqT (hv.seqT he (fun _ _ => trivial)) (fun _ _ => trivial)).ruleT .xmlDeclaration
  simp only [List.append_assoc]
  exact this

theorem gives_literal (n : Nat) (x a b : String) (ha : a.toList = '"' :: x.toList ++ ['"']) (hb : b.toList = '\'' :: x.toList ++ ['\'']) :
    Gives n (lit a // lit b) (fun t _ => InQuotes (fun _ u => u = x.toList) t) :=
  ((gives_lit n a).alt (gives_lit n b)).mono (by
    rintro t ps (⟨rfl, _⟩ | ⟨rfl, _⟩)
    · exact ⟨_, _, .inl rfl, rfl, ha⟩
    · exact ⟨_, _, .inr rfl, rfl, hb⟩)

theorem takes_literal (x a b : String) (ha : a.toList = '"' :: x.toList ++ ['"']) (hb : b.toList = '\'' :: x.toList ++ ['\'']) {t : List Char}
    (h : InQuotes (fun _ u => u = x.toList) t) : Takes (lit a // lit b) t (fun _ => True) (fun _ => True) := by
  obtain ⟨q, u, hq, rfl, rfl⟩ := h
  rcases hq with rfl | rfl
  · rw [← ha]
    exact (takes_lit a _).left.mono (fun _ h => h) (fun _ _ => trivial)
  · rw [← hb]
    refine (Takes.right (fun r _ => lit_fail ?_) (takes_lit b _)).mono (fun _ h => h) (fun _ _ => trivial)
    rw [ha, hb]
    simp

theorem gives_doctype (n : Nat) : Gives n plistDoctypeDeclaration (fun t _ => Doctype t) := by
  refine Gives.ruleT _ (Gives.mono ((gives_lit n "<!DOCTYPE").seq ((gives_ws n).seq ((gives_lit n "plist").seq ((gives_ws n).seq
    ((Gives.rule .plistExternalIdentifier ((gives_lit n "PUBLIC").seq ((gives_ws n).seq
      (((gives_literal n "-//Apple//DTD PLIST 1.0//EN" "\"-//Apple//DTD PLIST 1.0//EN\"" "'-//Apple//DTD PLIST 1.0//EN'" (by simp) (by simp)).ruleT .plistPublicIdentifierLiteral).seq
        ((gives_ws n).seq ((gives_literal n "http://www.apple.com/DTDs/PropertyList-1.0.dtd" "\"http://www.apple.com/DTDs/PropertyList-1.0.dtd\""
          "'http://www.apple.com/DTDs/PropertyList-1.0.dtd'" (by simp) (by simp)).ruleT .plistSystemLiteral)))))).seq
      ((gives_ows n).seq (gives_lit n ">"))))))) ?_)
  rintro t ps ⟨_, _, _, _, rfl, _, ⟨rfl, _⟩, g₁, _, _, _, rfl, _, ⟨h1, _⟩, _, _, _, _, rfl, _, ⟨rfl, _⟩, g₂, _, _, _, rfl, _, ⟨h2, _⟩, _, _, _, _, rfl, _,
    ⟨_, _, _, _, _, _, rfl, _, ⟨rfl, _⟩, g₃, _, _, _, rfl, _, ⟨h3, _⟩, p, _, _, _, rfl, _, h4, g₄, y, _, _, rfl, _, ⟨h5, _⟩, h6⟩, s, _, _, _, rfl, _, ⟨h7, _⟩, rfl, _⟩
  exact ⟨g₁, g₂, g₃, p, g₄, y, s, h1, h2, h3, h4, h5, h6, h7, by simp only [List.append_assoc]⟩

theorem takes_doctype {t : List Char} (h : Doctype t) : Takes plistDoctypeDeclaration t (fun _ => True) (fun _ => True) := by
  obtain ⟨g₁, g₂, g₃, p, g₄, y, s, h1, h2, h3, h4, h5, h6, h7, rfl⟩ := h
  have hp := (takes_literal "-//Apple//DTD PLIST 1.0//EN" "\"-//Apple//DTD PLIST 1.0//EN\"" "'-//Apple//DTD PLIST 1.0//EN'" (by simp) (by simp) h4).ruleT .plistPublicIdentifierLiteral
  have hy := (takes_literal "http://www.apple.com/DTDs/PropertyList-1.0.dtd" "\"http://www.apple.com/DTDs/PropertyList-1.0.dtd\""
          "'http://www.apple.com/DTDs/PropertyList-1.0.dtd'" (by simp) (by simp) h6).ruleT .plistSystemLiteral
  have hx := ((takes_lit "PUBLIC" (fun _ => True)).seqT ((takes_ws h3).seqT (hp.seqT ((takes_ws h5).seqT hy (fun r _ => quotes_noHead h6 r (by decide) (by decide)))
    (fun _ _ => trivial)) (fun r _ => by rw [List.append_assoc]; exact quotes_noHead h4 _ (by decide) (by decide))) (fun _ _ => trivial)).ruleT .plistExternalIdentifier
  have := ((takes_lit "<!DOCTYPE" (fun _ => True)).seqT ((takes_ws h1).seqT ((takes_lit "plist" (fun _ => True)).seqT ((takes_ws h2).seqT
    (hx.seqT ((takes_ows h7).seqT (takes_lit ">" (fun _ => True)) (fun r _ => noHead_cons.2 (by decide))) (fun _ _ => trivial))
    (fun r _ => noHead_cons.2 (by decide))) (fun _ _ => trivial)) (fun r _ => noHead_cons.2 (by decide))) (fun _ _ => trivial)).ruleT .plistDoctypeDeclaration
  simp only [List.append_assoc] at this ⊢
  exact this

theorem gives_prolog (n : Nat) : Gives n plistProlog (fun t ps => Prolog t ∧ ∃ qs, ps = [.node .plistProlog t qs]) := by
  refine (Gives.rule .plistProlog (Gives.seq (gives_declaration n).optT (Gives.seq ((gives_misc n).mono fun t ps h => h.1)
    (Gives.optT (P := fun u => ∃ y n, Doctype y ∧ Misc n ∧ u = y ++ n) (Gives.mono ((gives_doctype n).seq (gives_misc n)) ?_))))).mono ?_
  · rintro t ps ⟨y, m, _, _, rfl, _, h1, h2, _⟩
    exact ⟨y, m, h1, h2, rfl⟩
  · rintro t ps ⟨qs, rfl, d, _, _, _, rfl, _, h1, m, x, _, _, rfl, _, h2, h3⟩
    exact ⟨⟨d, m, x, h1, h2, h3, by simp⟩, qs, rfl⟩

theorem misc_noXml {m r : List Char} (h : Misc m) (hr : ¬ "<?xml".toList <+: r) : ¬ "<?xml".toList <+: m ++ r := by
  cases h with
  | nil => exact hr
  | space c t hc _ =>
    intro hp
    have : c = '<' := by simp at hp; exact hp.1.symm
    subst this
    exact absurd (spaceB_iff.2 hc) (by decide)
  | comment u t hu _ =>
    obtain ⟨v, rfl⟩ := comment_head hu
    simp
  | instruction u t hu _ =>
    obtain ⟨n, w, h1, h2, h3, _, _, rfl⟩ := hu
    have h0 : n ≠ [] := by obtain ⟨c, u, rfl, _⟩ := h1; simp
    have := noXml_append (rest := w ++ ("?>".toList ++ (t ++ r))) h0 h2 (by
      cases w with
      | nil => exact noHead_cons.2 (by decide)
      | cons c w => exact noHead_cons.2 (space_not_name (h3 c rfl)))
    rintro ⟨z, hz⟩
    simp only [String.reduceToList, List.cons_append, List.nil_append, List.append_assoc, List.cons.injEq, true_and] at hz
    refine this 'x' 'm' 'l' z ?_ (by decide)
    simp only [String.reduceToList, List.cons_append, List.nil_append]
    exact hz.symm

theorem takes_prolog {t : List Char} (h : Prolog t) : Takes plistProlog t (fun r => ∃ r', r = "<plist".toList ++ r') (fun ps => ∃ qs, ps = [.node .plistProlog t qs]) := by
  obtain ⟨d, m, x, h1, h2, h3, rfl⟩ := h
  have hend : ∀ r, (∃ r', r = "<plist".toList ++ r') → MiscEnd r := by
    rintro r ⟨r', rfl⟩
    exact ⟨noHead_cons.2 (by decide), by simp, by simp⟩
  have hx : Takes (opt (plistDoctypeDeclaration ~~ star miscellaneous)) x (fun r => ∃ r', r = "<plist".toList ++ r') (fun _ => True) := by
    rcases h3 with rfl | ⟨y, k, h4, h5, rfl⟩
    · refine (takes_none ?_).mono (fun _ h => h) (fun _ _ => trivial)
      rintro r ⟨r', rfl⟩
      exact seq_fail (rule_fail (seq_fail (lit_fail (by simp))))
    · exact (((takes_doctype h4).seqT (takes_misc h5) (fun _ _ => trivial)).mono hend (fun _ h => h)).some
  have hxe : ∀ r, (∃ r', r = "<plist".toList ++ r') → MiscEnd (x ++ r) := by
    rintro r ⟨r', rfl⟩
    rcases h3 with rfl | ⟨y, k, ⟨_, _, _, _, _, _, _, _, _, _, _, _, _, _, rfl⟩, h5, rfl⟩
    · exact hend _ ⟨r', rfl⟩
    · exact ⟨noHead_cons.2 (by decide), by simp, by simp⟩
  have hmx := (takes_misc h2).seqT hx hxe
  have hd : Takes (opt xmlDeclaration) d (fun r => ¬ "<?xml".toList <+: r) (fun _ => True) := by
    rcases h1 with rfl | h1
    · exact (takes_none fun r hr => rule_fail (seq_fail (lit_fail hr))).mono (fun _ h => h) (fun _ _ => trivial)
    · exact (takes_declaration h1).some.mono (fun _ _ => trivial) (fun _ h => h)
  have := (hd.seqT hmx (fun r hr => by
    rw [List.append_assoc]
    refine misc_noXml h2 fun hp => (hxe r hr).2.2 ?_
    exact (List.IsPrefix.trans ⟨"xml".toList, rfl⟩ hp))).rule .plistProlog
  rw [← List.append_assoc] at this
  exact this.mono (fun _ h => h) fun ps ⟨qs, h, _⟩ => ⟨qs, h⟩

end Keramics.XmlPlist
