import Verif.Spec.XmlPlist

/-! Lemmas about the model of XML property lists. -/

namespace Keramics.XmlPlist

open Spec.Plist

/-- One character of which a test holds. -/
def sat (f : Char → Bool) : Expr
  | [] => .fail
  | c :: s => if f c then .ok s [] else .fail

/-- The characters in ranges. -/
def within (ranges : List (Nat × Nat)) (c : Char) : Bool := ranges.any fun r => r.1 ≤ c.toNat ∧ c.toNat ≤ r.2

theorem one_eq (r : List (Nat × Nat)) : one r = sat (within r) := by
  funext s
  cases s <;> rfl

theorem lit_eq (x : String) (c : Char) (h : x.toList = [c]) : lit x = sat (· == c) := by
  funext s
  have hl : x.length = 1 := by rw [← String.length_toList, h]; rfl
  unfold lit
  rw [h, hl]
  cases s with
  | nil => simp [sat]
  | cons d s =>
    by_cases hd : d = c
    · subst hd; simp [sat]
    · have : ¬ c = d := fun e => hd e.symm
      simp [sat, hd, List.cons_prefix_cons, this]

theorem alt_sat (f g : Char → Bool) : alt (sat f) (sat g) = sat (fun c => f c || g c) := by
  funext s
  cases s with
  | nil => rfl
  | cons c s =>
    simp only [alt, sat]
    by_cases hf : f c = true <;> simp [hf]

theorem neg_seq_sat (f g : Char → Bool) : seq (neg (sat f)) (sat g) = sat (fun c => ! f c && g c) := by
  funext s
  cases s with
  | nil => rfl
  | cons c s =>
    simp only [seq, neg, sat]
    by_cases hf : f c = true <;> by_cases hg : g c = true <;> simp [hf, hg]

theorem starN_sat (f : Char → Bool) (s : List Char) : ∀ n, s.length < n → starN (sat f) n s = .ok (s.dropWhile f) [] := by
  induction s with
  | nil => intro n hn; cases n with
    | zero => omega
    | succ n => rfl
  | cons c s ih => intro n hn; cases n with
    | zero => omega
    | succ n =>
      simp only [List.length_cons] at hn
      cases hf : f c with
      | false => simp [starN, sat, hf]
      | true => simp [starN, sat, hf, ih n (by omega)]

theorem star_sat (f : Char → Bool) (s : List Char) : star (sat f) s = .ok (s.dropWhile f) [] := starN_sat f s _ (by omega)

/-! ### What an expression gives -/

/-- On texts shorter than `n` the expression ends; what it takes and its pairs satisfy `P`. -/
def Gives (n : Nat) (p : Expr) (P : List Char → List Pair → Prop) : Prop :=
  ∀ s : List Char, s.length < n → (∃ t rest ps, p s = .ok rest ps ∧ s = t ++ rest ∧ P t ps) ∨ p s = .fail

theorem Gives.mono {n p P Q} (h : Gives n p P) (hq : ∀ t ps, P t ps → Q t ps) : Gives n p Q := by
  intro s hs
  rcases h s hs with ⟨t, rest, ps, h1, h2, h3⟩ | h
  · exact .inl ⟨t, rest, ps, h1, h2, hq t ps h3⟩
  · exact .inr h

theorem Gives.le {n m p P} (h : Gives n p P) (hm : m ≤ n) : Gives m p P := fun s hs => h s (by omega)

theorem gives_sat (n : Nat) (f : Char → Bool) : Gives n (sat f) (fun t ps => (∃ c, t = [c] ∧ f c = true) ∧ ps = []) := by
  intro s _
  cases s with
  | nil => exact .inr rfl
  | cons c s =>
    cases hf : f c with
    | false => right; simp [sat, hf]
    | true => left; exact ⟨[c], s, [], by simp [sat, hf], rfl, ⟨c, rfl, hf⟩, rfl⟩

theorem gives_lit (n : Nat) (x : String) : Gives n (lit x) (fun t ps => t = x.toList ∧ ps = []) := by
  intro s _
  unfold lit
  by_cases h : x.toList <+: s
  · left
    obtain ⟨u, hu⟩ := h
    refine ⟨x.toList, u, [], ?_, hu.symm, rfl, rfl⟩
    rw [if_pos ⟨u, hu⟩, ← hu, ← String.length_toList, List.drop_left]
  · exact .inr (if_neg h)

/-- The first part takes something: the second is used on shorter texts. -/
theorem Gives.seq' {n p q P Q} (hp : Gives (n + 1) p P) (hn : ∀ t ps, P t ps → t ≠ []) (hq : Gives n q Q) :
    Gives (n + 1) (seq p q) (fun t ps => ∃ a b pa pb, t = a ++ b ∧ ps = pa ++ pb ∧ P a pa ∧ Q b pb) := by
  intro s hs
  unfold seq
  rcases hp s hs with ⟨t, rest, ps, h1, h2, h3⟩ | h
  · rw [h1]
    have hl : rest.length < n := by
      have := List.length_pos_iff.2 (hn t ps h3)
      rw [h2, List.length_append] at hs
      omega
    rcases hq rest hl with ⟨u, rest', qs, h4, h5, h6⟩ | h
    · left
      refine ⟨t ++ u, rest', ps ++ qs, by simp [h4], by rw [h2, h5, List.append_assoc], t, u, ps, qs, rfl, rfl, h3, h6⟩
    · right; simp [h]
  · right; simp [h]

theorem Gives.seq {n p q P Q} (hp : Gives n p P) (hq : Gives n q Q) :
    Gives n (seq p q) (fun t ps => ∃ a b pa pb, t = a ++ b ∧ ps = pa ++ pb ∧ P a pa ∧ Q b pb) := by
  intro s hs
  unfold XmlPlist.seq
  rcases hp s hs with ⟨t, rest, ps, h1, h2, h3⟩ | h
  · rw [h1]
    have hl : rest.length < n := by
      rw [h2, List.length_append] at hs
      omega
    rcases hq rest hl with ⟨u, rest', qs, h4, h5, h6⟩ | h
    · left
      refine ⟨t ++ u, rest', ps ++ qs, by simp [h4], by rw [h2, h5, List.append_assoc], t, u, ps, qs, rfl, rfl, h3, h6⟩
    · right; simp [h]
  · right; simp [h]

theorem Gives.alt {n p q P Q} (hp : Gives n p P) (hq : Gives n q Q) : Gives n (alt p q) (fun t ps => P t ps ∨ Q t ps) := by
  intro s hs
  unfold XmlPlist.alt
  rcases hp s hs with ⟨t, rest, ps, h1, h2, h3⟩ | h
  · rw [h1]; exact .inl ⟨t, rest, ps, rfl, h2, .inl h3⟩
  · rw [h]
    rcases hq s hs with ⟨t, rest, ps, h1, h2, h3⟩ | h
    · exact .inl ⟨t, rest, ps, h1, h2, .inr h3⟩
    · exact .inr h

theorem Gives.opt {n p P} (hp : Gives n p P) : Gives n (opt p) (fun t ps => P t ps ∨ (t = [] ∧ ps = [])) := by
  intro s hs
  unfold XmlPlist.opt
  rcases hp s hs with ⟨t, rest, ps, h1, h2, h3⟩ | h
  · rw [h1]; exact .inl ⟨t, rest, ps, rfl, h2, .inl h3⟩
  · rw [h]; exact .inl ⟨[], s, [], rfl, rfl, .inr ⟨rfl, rfl⟩⟩

theorem Gives.neg {n p P} (hp : Gives n p P) : Gives n (neg p) (fun t ps => t = [] ∧ ps = []) := by
  intro s hs
  unfold XmlPlist.neg
  rcases hp s hs with ⟨t, rest, ps, h1, h2, h3⟩ | h
  · rw [h1]; exact .inr rfl
  · rw [h]; exact .inl ⟨[], s, [], rfl, rfl, rfl, rfl⟩

/-- Repetitions. -/
inductive Reps (P : List Char → List Pair → Prop) : List Char → List Pair → Prop
  | nil : Reps P [] []
  | cons {t ps u qs} : P t ps → Reps P u qs → Reps P (t ++ u) (ps ++ qs)

theorem Gives.starN {n p P} (hp : Gives n p P) (hn : ∀ t ps, P t ps → t ≠ []) : ∀ m s, s.length < n → s.length < m →
    ∃ t rest ps, starN p m s = .ok rest ps ∧ s = t ++ rest ∧ Reps P t ps := by
  intro m
  induction m with
  | zero => intro s _ h; omega
  | succ m ih =>
    intro s hs hm
    unfold XmlPlist.starN
    rcases hp s hs with ⟨t, rest, ps, h1, h2, h3⟩ | h
    · rw [h1]
      have := List.length_pos_iff.2 (hn t ps h3)
      have hl : s.length = t.length + rest.length := by rw [h2, List.length_append]
      obtain ⟨u, rest', qs, h4, h5, h6⟩ := ih rest (by omega) (by omega)
      exact ⟨t ++ u, rest', ps ++ qs, by simp [h4], by rw [h2, h5, List.append_assoc], .cons h3 h6⟩
    · rw [h]; exact ⟨[], s, [], rfl, rfl, .nil⟩

theorem Gives.star {n p P} (hp : Gives n p P) (hn : ∀ t ps, P t ps → t ≠ []) : Gives n (star p) (Reps P) :=
  fun s hs => .inl (hp.starN hn _ s hs (by omega))

theorem Gives.rule {n p P} (r : Rule) (hp : Gives n p P) : Gives n (rule r p) (fun t ps => ∃ qs, ps = [.node r t qs] ∧ P t qs) := by
  intro s hs
  unfold XmlPlist.rule
  rcases hp s hs with ⟨t, rest, ps, h1, h2, h3⟩ | h
  · rw [h1]
    refine .inl ⟨t, rest, _, rfl, h2, ps, ?_, h3⟩
    rw [h2, List.length_append, Nat.add_sub_cancel, List.take_left]
  · rw [h]; exact .inr rfl

theorem Reps.mono {P Q : List Char → List Pair → Prop} (h : ∀ t ps, P t ps → Q t ps) {t ps} (hr : Reps P t ps) : Reps Q t ps := by
  induction hr with
  | nil => exact .nil
  | cons h1 _ ih => exact .cons (h _ _ h1) ih

theorem reps_sat {f : Char → Bool} {t ps} (h : Reps (fun t ps => (∃ c, t = [c] ∧ f c = true) ∧ ps = []) t ps) : (∀ c ∈ t, f c = true) ∧ ps = [] := by
  induction h with
  | nil => exact ⟨nofun, rfl⟩
  | cons h1 _ ih =>
    obtain ⟨⟨c, rfl, hc⟩, rfl⟩ := h1
    obtain ⟨h2, rfl⟩ := ih
    refine ⟨?_, rfl⟩
    intro x hx
    rcases List.mem_append.1 hx with hx | hx
    · rw [List.mem_singleton.1 hx]; exact hc
    · exact h2 x hx

theorem gives_star_sat (n : Nat) (f : Char → Bool) : Gives n (star (sat f)) (fun t ps => (∀ c ∈ t, f c = true) ∧ ps = []) :=
  ((gives_sat n f).star (by rintro t ps ⟨⟨c, rfl, _⟩, _⟩; simp)).mono fun _ _ h => reps_sat h

theorem gives_plus_sat (n : Nat) (f : Char → Bool) : Gives n (plus (sat f)) (fun t ps => (t ≠ [] ∧ ∀ c ∈ t, f c = true) ∧ ps = []) :=
  ((gives_sat n f).seq (gives_star_sat n f)).mono (by
    rintro t ps ⟨a, b, pa, pb, rfl, rfl, ⟨⟨c, rfl, hc⟩, rfl⟩, h2, rfl⟩
    refine ⟨⟨by simp, ?_⟩, rfl⟩
    intro x hx
    rcases List.mem_append.1 hx with hx | hx
    · rw [List.mem_singleton.1 hx]; exact hc
    · exact h2 x hx)

/-! ### What an expression takes -/

/-- Before a text of which `F` holds the expression takes `t`, and its pairs satisfy `Q`. -/
def Takes (p : Expr) (t : List Char) (F : List Char → Prop) (Q : List Pair → Prop) : Prop :=
  ∀ rest, F rest → ∃ ps, p (t ++ rest) = .ok rest ps ∧ Q ps

theorem Takes.mono {p t F G Q Q'} (h : Takes p t F Q) (hf : ∀ r, G r → F r) (hq : ∀ ps, Q ps → Q' ps) : Takes p t G Q' := by
  intro rest hr
  obtain ⟨ps, h1, h2⟩ := h rest (hf _ hr)
  exact ⟨ps, h1, hq _ h2⟩

theorem takes_lit (x : String) (F : List Char → Prop) : Takes (lit x) x.toList F (· = []) := by
  intro rest _
  refine ⟨[], ?_, rfl⟩
  unfold lit
  rw [if_pos ⟨rest, rfl⟩, ← String.length_toList, List.drop_left]

theorem takes_sat {f : Char → Bool} {c : Char} (h : f c = true) (F : List Char → Prop) : Takes (sat f) [c] F (· = []) :=
  fun rest _ => ⟨[], by simp [sat, h], rfl⟩

theorem Takes.seq {p q t u F G P Q R'} (hp : Takes p t F P) (hq : Takes q u G Q) (hf : ∀ r, G r → F (u ++ r))
    (hr : ∀ ps qs, P ps → Q qs → R' (ps ++ qs)) : Takes (seq p q) (t ++ u) G R' := by
  intro rest hrest
  obtain ⟨ps, h1, h2⟩ := hp (u ++ rest) (hf _ hrest)
  obtain ⟨qs, h3, h4⟩ := hq rest hrest
  exact ⟨ps ++ qs, by simp [XmlPlist.seq, h1, h3, List.append_assoc], hr _ _ h2 h4⟩

theorem Takes.seqT {p q t u F G P Q} (hp : Takes p t F P) (hq : Takes q u G Q) (hf : ∀ r, G r → F (u ++ r)) : Takes (XmlPlist.seq p q) (t ++ u) G (fun _ => True) :=
  hp.seq hq hf fun _ _ _ _ => trivial

theorem lit_app (x : String) (r : List Char) : lit x (x.toList ++ r) = .ok r [] := by
  obtain ⟨ps, h, rfl⟩ := takes_lit x (fun _ => True) r trivial
  exact h

theorem seq_fail_right {p q : Expr} {s s' : List Char} {ps} (h : p s = .ok s' ps) (h' : q s' = .fail) : seq p q s = .fail := by simp [seq, h, h']

theorem Takes.ruleT {p t F Q} (r : Rule) (hp : Takes p t F Q) : Takes (XmlPlist.rule r p) t F (fun _ => True) := by
  intro rest hr
  obtain ⟨ps, h1, h2⟩ := hp rest hr
  exact ⟨_, by unfold XmlPlist.rule; rw [h1], trivial⟩

theorem Takes.left {p q t F Q} (hp : Takes p t F Q) : Takes (alt p q) t F Q := by
  intro rest hr
  obtain ⟨ps, h1, h2⟩ := hp rest hr
  exact ⟨ps, by simp [alt, h1], h2⟩

theorem Takes.right {p q t F Q} (hf : ∀ r, F r → p (t ++ r) = .fail) (hq : Takes q t F Q) : Takes (alt p q) t F Q := by
  intro rest hr
  obtain ⟨ps, h1, h2⟩ := hq rest hr
  exact ⟨ps, by simp [alt, hf rest hr, h1], h2⟩

theorem Takes.some {p t F Q} (hp : Takes p t F Q) : Takes (opt p) t F Q := by
  intro rest hr
  obtain ⟨ps, h1, h2⟩ := hp rest hr
  exact ⟨ps, by simp [opt, h1], h2⟩

theorem takes_none {p : Expr} {F : List Char → Prop} (hf : ∀ r, F r → p r = .fail) : Takes (opt p) [] F (· = []) :=
  fun rest hr => ⟨[], by simp [opt, hf rest hr], rfl⟩

theorem takes_neg {p : Expr} {F : List Char → Prop} (hf : ∀ r, F r → p r = .fail) : Takes (neg p) [] F (· = []) :=
  fun rest hr => ⟨[], by simp [neg, hf rest hr], rfl⟩

theorem Takes.rule {p t F Q} (r : Rule) (hp : Takes p t F Q) : Takes (rule r p) t F (fun ps => ∃ qs, ps = [.node r t qs] ∧ Q qs) := by
  intro rest hr
  obtain ⟨ps, h1, h2⟩ := hp rest hr
  refine ⟨[.node r t ps], ?_, ps, rfl, h2⟩
  unfold XmlPlist.rule
  rw [h1]
  simp

theorem dropWhile_stop {f : Char → Bool} {t rest : List Char} (ht : ∀ c ∈ t, f c = true) (hr : ∀ c ∈ rest.head?, f c = false) :
    (t ++ rest).dropWhile f = rest := by
  induction t with
  | nil =>
    cases rest with
    | nil => rfl
    | cons c rest => rw [List.nil_append, List.dropWhile_cons, hr c rfl]; rfl
  | cons c t ih => rw [List.cons_append, List.dropWhile_cons, ht c List.mem_cons_self]; exact ih fun x hx => ht x (List.mem_cons_of_mem _ hx)

/-- The first character, if there is one, does not pass a test. -/
def NoHead (f : Char → Bool) (rest : List Char) : Prop := ∀ c ∈ rest.head?, f c = false

theorem takes_star_sat {f : Char → Bool} {t : List Char} (ht : ∀ c ∈ t, f c = true) : Takes (star (sat f)) t (NoHead f) (· = []) :=
  fun rest hr => ⟨[], by rw [star_sat, dropWhile_stop ht hr], rfl⟩

theorem takes_plus_sat {f : Char → Bool} {t : List Char} (h0 : t ≠ []) (ht : ∀ c ∈ t, f c = true) : Takes (plus (sat f)) t (NoHead f) (· = []) := by
  cases t with
  | nil => exact absurd rfl h0
  | cons c t =>
    exact (takes_sat (ht c List.mem_cons_self) (fun _ => True)).seq (takes_star_sat fun x hx => ht x (List.mem_cons_of_mem _ hx)) (fun _ _ => trivial)
      (by rintro _ _ rfl rfl; rfl)

/-! ### Repetitions -/

theorem starN_mono {p : Expr} : ∀ n s rest ps, starN p n s = .ok rest ps → ∀ m, n ≤ m → starN p m s = .ok rest ps := by
  intro n
  induction n with
  | zero => intro s rest ps h; cases h
  | succ n ih =>
    intro s rest ps h m hm
    cases m with
    | zero => omega
    | succ m =>
      unfold starN at h ⊢
      cases hp : p s with
      | fail => rw [hp] at h; exact h
      | endless => rw [hp] at h; exact h
      | ok s' qs =>
        rw [hp] at h
        simp only at h ⊢
        cases hq : starN p n s' with
        | fail => rw [hq] at h; cases h
        | endless => rw [hq] at h; cases h
        | ok s'' rs => rw [hq] at h; rw [ih _ _ _ hq m (by omega)]; exact h

theorem star_stop {p : Expr} {s : List Char} (h : p s = .fail) : star p s = .ok s [] := by
  simp [star, starN, h]

theorem star_step {p : Expr} {s s' s'' ps qs} (h : p s = .ok s' ps) (hl : s'.length < s.length) (h' : star p s' = .ok s'' qs) : star p s = .ok s'' (ps ++ qs) := by
  unfold star at h' ⊢
  unfold starN
  rw [h]
  simp only
  rw [starN_mono _ _ _ _ h' s.length (by omega)]

/-- One more repetition. -/
theorem Takes.step {p t u F G P Q R'} (hp : Takes p t F P) (hn : t ≠ []) (hq : Takes (star p) u G Q) (hf : ∀ r, G r → F (u ++ r))
    (hr : ∀ ps qs, P ps → Q qs → R' (ps ++ qs)) : Takes (star p) (t ++ u) G R' := by
  intro rest hrest
  obtain ⟨ps, h1, h2⟩ := hp (u ++ rest) (hf _ hrest)
  obtain ⟨qs, h3, h4⟩ := hq rest hrest
  have := List.length_pos_iff.2 hn
  refine ⟨ps ++ qs, star_step (by rw [List.append_assoc]; exact h1) (by simp only [List.length_append]; omega) h3, hr _ _ h2 h4⟩

theorem Takes.stepT {p t u F G P Q} (hp : Takes p t F P) (hn : t ≠ []) (hq : Takes (star p) u G Q) (hf : ∀ r, G r → F (u ++ r)) : Takes (star p) (t ++ u) G (fun _ => True) :=
  hp.step hn hq hf fun _ _ _ _ => trivial

theorem takes_star_nil {p : Expr} {F : List Char → Prop} (hf : ∀ r, F r → p r = .fail) : Takes (star p) [] F (· = []) :=
  fun rest hr => ⟨[], star_stop (hf rest hr), rfl⟩

/-- Repetitions of a character, or of an alternative, until neither. -/
theorem seq_fail {p q : Expr} {s : List Char} (h : p s = .fail) : seq p q s = .fail := by simp [seq, h]

theorem rule_fail {p : Expr} {r : Rule} {s : List Char} (h : p s = .fail) : rule r p s = .fail := by simp [rule, h]

theorem alt_fail {p q : Expr} {s : List Char} (h : p s = .fail) (h' : q s = .fail) : alt p q s = .fail := by simp [alt, h, h']

theorem sat_fail {f : Char → Bool} {s : List Char} (h : NoHead f s) : sat f s = .fail := by
  cases s with
  | nil => rfl
  | cons c s => simp [sat, h c rfl]

theorem plus_fail {f : Char → Bool} {s : List Char} (h : NoHead f s) : plus (sat f) s = .fail := seq_fail (sat_fail h)

theorem lit_fail {x : String} {s : List Char} (h : ¬ x.toList <+: s) : lit x s = .fail := if_neg h

/-! ### Classes of characters -/

theorem char_iff {c d : Char} : c = d ↔ c.toNat = d.toNat := ⟨fun h => h ▸ rfl, fun h => Char.ext (UInt32.toNat_inj.1 h)⟩

theorem char_valid (c : Char) : c.toNat < 0xd800 ∨ 0xdfff < c.toNat ∧ c.toNat < 0x110000 := c.valid

/-- White space. -/
def spaceB : Char → Bool := within [(0x20, 0x20), (9, 9), (10, 10), (13, 13)]

theorem spaceB_iff {c : Char} : spaceB c = true ↔ IsSpace c := by
  simp only [spaceB, within, IsSpace, char_iff, List.any_cons, List.any_nil, Bool.or_eq_true, decide_eq_true_eq, Bool.false_eq_true, or_false, Char.reduceToNat]
  omega

theorem charB_iff {c : Char} : within characterRanges c = true ↔ IsChar c := by
  have := char_valid c
  simp only [characterRanges, within, IsChar, char_iff, List.any_cons, List.any_nil, Bool.or_eq_true, decide_eq_true_eq, Bool.false_eq_true, or_false, Char.reduceToNat]
  omega

theorem nameStartB_iff {c : Char} : within nameFirstRanges c = true ↔ NameStart c := by
  simp only [nameFirstRanges, within, NameStart, Within, char_iff, List.any_cons, List.any_nil, Bool.or_eq_true, decide_eq_true_eq, Bool.false_eq_true, or_false, Char.reduceToNat,
    List.mem_cons, List.not_mem_nil, exists_eq_or_imp, exists_eq_left, false_and, exists_false]
  omega

theorem nameB_iff {c : Char} : within nameRanges c = true ↔ NameChar c := by
  unfold NameChar
  rw [← nameStartB_iff]
  unfold nameRanges
  simp only [within, List.any_append, Bool.or_eq_true]
  refine or_congr Iff.rfl ?_
  simp only [Within, IsDigit, char_iff, List.any_cons, List.any_nil, Bool.or_eq_true, decide_eq_true_eq, Bool.false_eq_true, or_false, Char.reduceToNat,
    List.mem_cons, List.not_mem_nil, exists_eq_or_imp, exists_eq_left, false_and, exists_false]
  omega

theorem digitB_iff {c : Char} : within [(0x30, 0x39)] c = true ↔ IsDigit c := by
  simp [within, IsDigit]

theorem hexB_iff {c : Char} : within [(0x30, 0x39), (0x61, 0x66), (0x41, 0x46)] c = true ↔ IsDigit c ∨ Within [('a'.toNat, 'f'.toNat), ('A'.toNat, 'F'.toNat)] c := by
  simp [within, IsDigit, Within]

theorem letterB_iff {c : Char} : within [(0x41, 0x5a), (0x61, 0x7a)] c = true ↔ Within [('A'.toNat, 'Z'.toNat), ('a'.toNat, 'z'.toNat)] c := by
  simp [within, Within]

theorem encodingB_iff {c : Char} : within [(0x41, 0x5a), (0x61, 0x7a), (0x30, 0x39), (0x2e, 0x2e), (0x5f, 0x5f), (0x2d, 0x2d)] c = true ↔
    Within [('A'.toNat, 'Z'.toNat), ('a'.toNat, 'z'.toNat)] c ∨ IsDigit c ∨ c = '.' ∨ c = '_' ∨ c = '-' := by
  simp only [within, Within, IsDigit, char_iff, List.any_cons, List.any_nil, Bool.or_eq_true, decide_eq_true_eq, Bool.false_eq_true, or_false, Char.reduceToNat,
    List.mem_cons, List.not_mem_nil, exists_eq_or_imp, exists_eq_left, false_and, exists_false]
  omega

/-- Characters without markup. -/
def efcB (c : Char) : Bool := ! (c == '<' || c == '&') && within characterRanges c

theorem efcB_iff {c : Char} : efcB c = true ↔ IsChar c ∧ c ≠ '<' ∧ c ≠ '&' := by
  unfold efcB
  rw [Bool.and_eq_true, charB_iff]
  simp
  constructor
  · rintro ⟨⟨h1, h2⟩, h3⟩; exact ⟨h3, h1, h2⟩
  · rintro ⟨h3, h1, h2⟩; exact ⟨⟨h1, h2⟩, h3⟩

theorem lt_eq : lit "<" = sat (· == '<') := lit_eq _ _ rfl
theorem amp_eq : lit "&" = sat (· == '&') := lit_eq _ _ rfl
theorem dash_eq : lit "-" = sat (· == '-') := lit_eq _ _ rfl

theorem efc_eq : entityFirstCharacter = sat efcB := by
  unfold entityFirstCharacter character
  rw [lt_eq, amp_eq, alt_sat, one_eq, neg_seq_sat]
  rfl

theorem whiteSpace_eq : whiteSpace = plus (sat spaceB) := by unfold whiteSpace; rw [one_eq]; rfl

theorem character_eq : character = sat (within characterRanges) := one_eq _

theorem noHead_cons {f : Char → Bool} {c : Char} {s : List Char} : NoHead f (c :: s) ↔ f c = false := by simp [NoHead]

theorem noHead_append {f : Char → Bool} {t s : List Char} (h : ∀ c ∈ t, f c = false) (hs : NoHead f s) : NoHead f (t ++ s) := by
  cases t with
  | nil => exact hs
  | cons c t => exact noHead_cons.2 (h c List.mem_cons_self)

theorem noHead_of_ne {f : Char → Bool} {t s : List Char} (h0 : t ≠ []) (h : ∀ c ∈ t, f c = false) : NoHead f (t ++ s) := by
  cases t with
  | nil => exact absurd rfl h0
  | cons c t => exact noHead_cons.2 (h c List.mem_cons_self)

theorem space_cases {c : Char} (h : IsSpace c) {f : Char → Bool} (h1 : f ' ' = false) (h2 : f '\t' = false) (h3 : f '\n' = false) (h4 : f '\r' = false) : f c = false := by
  rcases h with rfl | rfl | rfl | rfl <;> assumption

theorem space_not_name {c : Char} (h : IsSpace c) : within nameRanges c = false := space_cases h (by decide) (by decide) (by decide) (by decide)

theorem space_not_start {c : Char} (h : IsSpace c) : within nameFirstRanges c = false := space_cases h (by decide) (by decide) (by decide) (by decide)

/-! ### White space, names, references, attributes and tags -/

theorem gives_ws (n : Nat) : Gives n whiteSpace (fun t ps => Gap t ∧ ps = []) := by
  rw [whiteSpace_eq]
  exact (gives_plus_sat n spaceB).mono fun t ps h => ⟨⟨h.1.1, fun c hc => spaceB_iff.1 (h.1.2 c hc)⟩, h.2⟩

theorem gives_ows (n : Nat) : Gives n (opt whiteSpace) (fun t ps => Spaces t ∧ ps = []) :=
  (gives_ws n).opt.mono fun t ps h => by
    rcases h with h | h
    · exact ⟨h.1.2, h.2⟩
    · exact ⟨by rw [h.1]; nofun, h.2⟩

theorem takes_ws {g : List Char} (h : Gap g) : Takes whiteSpace g (NoHead spaceB) (· = []) := by
  rw [whiteSpace_eq]
  exact takes_plus_sat h.1 fun c hc => spaceB_iff.2 (h.2 c hc)

theorem ws_fail {s : List Char} (h : NoHead spaceB s) : whiteSpace s = .fail := by rw [whiteSpace_eq]; exact plus_fail h

theorem takes_ows {g : List Char} (h : Spaces g) : Takes (opt whiteSpace) g (NoHead spaceB) (· = []) := by
  by_cases h0 : g = []
  · subst h0
    exact takes_none fun r hr => ws_fail hr
  · exact (takes_ws ⟨h0, h⟩).some

theorem gives_equals (n : Nat) : Gives n equals (fun t _ => Equals t) :=
  ((gives_ows n).seq ((gives_lit n "=").seq (gives_ows n))).rule .equals |>.mono (by
    rintro t ps ⟨qs, rfl, a, b, _, _, rfl, rfl, ⟨h1, rfl⟩, c, d, _, _, rfl, rfl, ⟨rfl, rfl⟩, h2, rfl⟩
    exact ⟨a, d, h1, h2, rfl⟩)

theorem takes_equals {e : List Char} (h : Equals e) : Takes equals e (NoHead spaceB) (fun _ => True) := by
  obtain ⟨a, b, ha, hb, rfl⟩ := h
  exact (((takes_ows ha).seqT ((takes_lit "=" (fun _ => True)).seqT (takes_ows hb) (fun _ _ => trivial))
    (fun r _ => noHead_cons.2 (by decide))).rule .equals).mono (fun _ h => h) (fun _ _ => trivial)

theorem gives_name (n : Nat) : Gives n name (fun t _ => Name t) := by
  unfold name
  rw [one_eq, one_eq]
  exact ((gives_sat n _).seq (gives_star_sat n _)).rule .name |>.mono (by
    rintro t ps ⟨qs, rfl, a, b, _, _, rfl, rfl, ⟨⟨c, rfl, hc⟩, rfl⟩, h2, rfl⟩
    exact ⟨c, b, rfl, nameStartB_iff.1 hc, fun x hx => nameB_iff.1 (h2 x hx)⟩)

theorem takes_name {t : List Char} (h : Name t) : Takes name t (NoHead (within nameRanges)) (fun _ => True) := by
  obtain ⟨c, u, rfl, hc, hu⟩ := h
  unfold name
  rw [one_eq, one_eq]
  exact (((takes_sat (nameStartB_iff.2 hc) (fun _ => True)).seqT (takes_star_sat fun x hx => nameB_iff.2 (hu x hx)) (fun _ _ => trivial)
   ).rule .name).mono (fun _ h => h) (fun _ _ => trivial)

theorem name_fail {s : List Char} (h : NoHead (within nameFirstRanges) s) : name s = .fail := by
  unfold name
  rw [one_eq]
  exact rule_fail (seq_fail (sat_fail h))

theorem gives_reference (n : Nat) : Gives n reference (fun t ps => Reference t ∧ ∃ qs, ps = [.node .reference t qs]) := by
  unfold reference entityReference characterReference
  rw [one_eq, one_eq]
  refine (Gives.rule .reference ((Gives.rule .entityReference ((gives_lit n "&").seq ((gives_name n).seq (gives_lit n ";")))).alt
    (Gives.rule .characterReference (((gives_lit n "&#").seq ((gives_plus_sat n _).seq (gives_lit n ";"))).alt
      ((gives_lit n "&#x").seq ((gives_plus_sat n _).seq (gives_lit n ";"))))))).mono ?_
  rintro t ps ⟨qs, rfl, h⟩
  refine ⟨?_, qs, rfl⟩
  rcases h with ⟨_, _, a, b, _, _, rfl, _, ⟨rfl, _⟩, c, d, _, _, rfl, _, h1, rfl, _⟩ | ⟨_, _, ⟨a, b, _, _, rfl, _, ⟨rfl, _⟩, c, d, _, _, rfl, _, ⟨h1, _⟩, rfl, _⟩ |
    ⟨a, b, _, _, rfl, _, ⟨rfl, _⟩, c, d, _, _, rfl, _, ⟨h1, _⟩, rfl, _⟩⟩
  · exact .entity c h1
  · exact .decimal c h1.1 fun x hx => digitB_iff.1 (h1.2 x hx)
  · exact .hexadecimal c h1.1 fun x hx => hexB_iff.1 (h1.2 x hx)

theorem takes_reference {t : List Char} (h : Reference t) : Takes reference t (fun _ => True) (fun ps => ∃ qs, ps = [.node .reference t qs]) := by
  suffices hh : Takes (entityReference // characterReference) t (fun _ => True) (fun _ => True) from
    (hh.rule .reference).mono (fun _ h => h) fun ps ⟨qs, h, _⟩ => ⟨qs, h⟩
  have hsemi : ∀ f : Char → Bool, f ';' = false → ∀ r : List Char, True → NoHead f (";".toList ++ r) := fun f hf r _ => noHead_cons.2 hf
  have hno : ∀ r : List Char, entityReference ('&' :: '#' :: r) = .fail := by
    intro r
    unfold entityReference
    refine rule_fail ?_
    exact seq_fail_right (lit_app "&" _) (seq_fail (name_fail (noHead_cons.2 (by decide))))
  cases h with
  | entity n hn =>
    exact Takes.left (((takes_lit "&" (fun _ => True)).seqT ((takes_name hn).seqT (takes_lit ";" (fun _ => True)) (hsemi _ (by decide)))
      (fun _ _ => trivial)).ruleT _)
  | decimal d h0 hd =>
    refine Takes.right (fun r _ => hno _) ?_
    unfold characterReference
    rw [one_eq, one_eq]
    refine ((Takes.left ((takes_lit "&#" (fun _ => True)).seqT ((takes_plus_sat h0 fun c hc => digitB_iff.2 (hd c hc)).seqT (takes_lit ";" (fun _ => True)) (hsemi _ (by decide))
     )
      (fun _ _ => trivial))).rule _).mono (fun _ h => h) (fun _ _ => trivial)
  | hexadecimal d h0 hd =>
    refine Takes.right (fun r _ => hno _) ?_
    unfold characterReference
    rw [one_eq, one_eq]
    refine ((Takes.right ?_ ((takes_lit "&#x" (fun _ => True)).seqT ((takes_plus_sat h0 fun c hc => hexB_iff.2 (hd c hc)).seqT (takes_lit ";" (fun _ => True)) (hsemi _ (by decide))
     )
      (fun _ _ => trivial))).rule _).mono (fun _ h => h) (fun _ _ => trivial)
    intro r _
    exact seq_fail_right (lit_app "&#" _) (seq_fail (plus_fail (noHead_cons.2 (by decide))))

/-- A character between quotes. -/
def quotedB (q : Char) (c : Char) : Bool := ! (c == '<' || (c == '&' || c == q)) && within characterRanges c

theorem quotedB_iff {q c : Char} : quotedB q c = true ↔ IsChar c ∧ c ≠ '<' ∧ c ≠ '&' ∧ c ≠ q := by
  unfold quotedB
  rw [Bool.and_eq_true, charB_iff]
  simp
  constructor
  · rintro ⟨⟨h1, h2, h4⟩, h3⟩; exact ⟨h3, h1, h2, h4⟩
  · rintro ⟨h3, h1, h2, h4⟩; exact ⟨⟨h1, h2, h4⟩, h3⟩

theorem quoted_eq (x : String) (q : Char) (h : x.toList = [q]) : quoted x = (lit x ~~ star (sat (quotedB q) // reference) ~~ lit x) := by
  unfold quoted
  congr 2
  rw [character_eq, lt_eq, amp_eq, lit_eq x q h, alt_sat, alt_sat, neg_seq_sat]
  rfl

theorem gives_quoted (n : Nat) (x : String) (q : Char) (h : x.toList = [q]) : Gives n (quoted x) (fun t _ => ∃ u, Quoted q u ∧ t = q :: u ++ [q]) := by
  rw [quoted_eq x q h]
  have hs : Gives n (star (sat (quotedB q) // reference)) (fun t _ => Quoted q t) := by
    refine (((gives_sat n _).alt (gives_reference n)).star ?_).mono ?_
    · rintro t ps (⟨⟨c, rfl, _⟩, _⟩ | ⟨hr, _⟩)
      · simp
      · cases hr <;> simp
    · intro t ps hr
      induction hr with
      | nil => exact .nil
      | cons h1 _ ih =>
        rcases h1 with ⟨⟨c, rfl, hc⟩, _⟩ | ⟨hr, _⟩
        · have := quotedB_iff.1 hc
          exact .char _ _ this.1 this.2.1 this.2.2.1 this.2.2.2 ih
        · exact .reference _ _ hr ih
  refine ((gives_lit n x).seq (hs.seq (gives_lit n x))).mono ?_
  rintro t ps ⟨a, b, _, _, rfl, _, ⟨rfl, _⟩, c, d, _, _, rfl, _, h1, rfl, _⟩
  exact ⟨c, h1, by rw [h]; simp⟩

theorem ref_head {r : List Char} (h : Reference r) : ∃ u, r = '&' :: u := by
  cases h with
  | entity n _ => exact ⟨_, rfl⟩
  | decimal d _ _ => exact ⟨_, rfl⟩
  | hexadecimal d _ _ => exact ⟨_, rfl⟩

theorem reference_fail {s : List Char} (h : NoHead (· == '&') s) : reference s = .fail := by
  unfold reference entityReference characterReference
  have h1 : ∀ x : String, x.toList.head? = some '&' → lit x s = .fail := by
    intro x hx
    refine lit_fail ?_
    rintro ⟨u, rfl⟩
    cases hx' : x.toList with
    | nil => rw [hx'] at hx; cases hx
    | cons c v =>
      rw [hx'] at hx h
      cases hx
      exact absurd (h '&' rfl) (by decide)
  exact rule_fail (alt_fail (rule_fail (seq_fail (h1 "&" rfl))) (rule_fail (alt_fail (seq_fail (h1 "&#" rfl)) (seq_fail (h1 "&#x" rfl)))))

theorem takes_quoted (x : String) (q : Char) (h : x.toList = [q]) (hq : q = '"' ∨ q = '\'') {u : List Char} (hu : Quoted q u) :
    Takes (quoted x) (q :: u ++ [q]) (fun _ => True) (fun _ => True) := by
  rw [quoted_eq x q h]
  have hs : Takes (star (sat (quotedB q) // reference)) u (fun r => ∃ r', r = q :: r') (fun _ => True) := by
    induction hu with
    | nil =>
      refine (takes_star_nil ?_).mono (fun _ h => h) (fun _ _ => trivial)
      rintro r ⟨r', rfl⟩
      refine alt_fail (sat_fail (noHead_cons.2 ?_)) (reference_fail (noHead_cons.2 ?_))
      · simp [quotedB]
      · rcases hq with rfl | rfl <;> rfl
    | char c t h1 h2 h3 h4 _ ih =>
      exact (Takes.left (takes_sat (quotedB_iff.2 ⟨h1, h2, h3, h4⟩) (fun _ => True))).step (by simp) ih (fun _ _ => trivial) (fun _ _ _ _ => trivial)
    | reference r t hr _ ih =>
      obtain ⟨v, hv⟩ := ref_head hr
      refine (Takes.right ?_ (takes_reference hr)).step (by rw [hv]; simp) ih (fun _ _ => trivial) (fun _ _ _ _ => trivial)
      intro r' _
      rw [hv]
      exact sat_fail (noHead_cons.2 (by simp [quotedB]))
  have hl := takes_lit x (fun _ => True)
  rw [h] at hl
  exact hl.seqT (hs.seqT hl (fun r _ => ⟨r, rfl⟩)) (fun _ _ => trivial)

theorem gives_attributeValue (n : Nat) : Gives n attributeValue (fun t _ => InQuotes Quoted t) :=
  ((gives_quoted n "\"" '"' rfl).alt (gives_quoted n "'" '\'' rfl)).rule .attributeValue |>.mono (by
    rintro t ps ⟨qs, rfl, ⟨u, h1, h2⟩ | ⟨u, h1, h2⟩⟩
    · exact ⟨_, u, .inl rfl, h1, h2⟩
    · exact ⟨_, u, .inr rfl, h1, h2⟩)

theorem takes_attributeValue {t : List Char} (h : InQuotes Quoted t) : Takes attributeValue t (fun _ => True) (fun _ => True) := by
  obtain ⟨q, u, hq, hu, rfl⟩ := h
  refine Takes.mono (Takes.rule _ (Q := fun _ => True) ?_) (fun _ h => h) (fun _ _ => trivial)
  rcases hq with rfl | rfl
  · exact (takes_quoted "\"" '"' rfl (.inl rfl) hu).left
  · refine Takes.right ?_ (takes_quoted "'" '\'' rfl (.inr rfl) hu)
    intro r _
    exact seq_fail (lit_fail (by simp))

theorem gives_attributes (n : Nat) : Gives n (star (whiteSpace ~~ attributeExpr)) (fun t _ => Attributes t) := by
  refine (((gives_ws n).seq (Gives.rule .attribute ((gives_name n).seq ((gives_equals n).seq (gives_attributeValue n))))).star ?_).mono ?_
  · rintro t ps ⟨a, b, _, _, rfl, _, h1, _⟩
    simp [h1.1.1]
  · intro t ps h
    induction h with
    | nil => exact .nil
    | cons h1 _ ih =>
      obtain ⟨a, b, _, _, rfl, _, ⟨h1, _⟩, _, _, c, d, _, _, rfl, _, h2, e, f, _, _, rfl, _, h3, h4⟩ := h1
      simpa only [List.append_assoc] using Attributes.cons a c e f _ h1 h2 h3 h4 ih

/-- The end of the attributes. -/
def AttributesEnd (r : List Char) : Prop := ∃ s x, r = s ++ x ∧ Spaces s ∧ NoHead spaceB x ∧ NoHead (within nameFirstRanges) x

theorem equals_noHead {e : List Char} (h : Equals e) (r : List Char) {f : Char → Bool} (h1 : ∀ c, IsSpace c → f c = false) (h2 : f '=' = false) : NoHead f (e ++ r) := by
  obtain ⟨a, b, ha, hb, rfl⟩ := h
  rw [List.append_assoc]
  exact noHead_append (fun c hc => h1 c (ha c hc)) (noHead_cons.2 h2)

theorem quotes_noHead {v : List Char} {P} (h : InQuotes P v) (r : List Char) {f : Char → Bool} (h1 : f '"' = false) (h2 : f '\'' = false) : NoHead f (v ++ r) := by
  obtain ⟨q, u, hq, hu, rfl⟩ := h
  rcases hq with rfl | rfl
  · exact noHead_cons.2 h1
  · exact noHead_cons.2 h2

theorem name_noHead {v : List Char} (h : Name v) (r : List Char) {f : Char → Bool} (h1 : ∀ c, within nameFirstRanges c = true → f c = false) : NoHead f (v ++ r) := by
  obtain ⟨c, u, rfl, hc, _⟩ := h
  exact noHead_cons.2 (h1 c (nameStartB_iff.2 hc))

theorem start_not_space {c : Char} (h : within nameFirstRanges c = true) : spaceB c = false := by
  cases hc : spaceB c with
  | false => rfl
  | true => rw [space_not_start (spaceB_iff.1 hc)] at h; cases h

theorem takes_attributes {a : List Char} (h : Attributes a) : Takes (star (whiteSpace ~~ attributeExpr)) a AttributesEnd (fun _ => True) := by
  induction h with
  | nil =>
    refine (takes_star_nil ?_).mono (fun _ h => h) (fun _ _ => trivial)
    rintro r ⟨s, x, rfl, h1, h2, h3⟩
    by_cases hs : s = []
    · subst hs; exact seq_fail (ws_fail h2)
    · obtain ⟨ps, hp, -⟩ := takes_ws ⟨hs, h1⟩ x h2
      unfold seq
      rw [hp]
      have : attributeExpr x = .fail := rule_fail (seq_fail (name_fail h3))
      simp [this]
  | cons g n e v t hg hn he hv _ ih =>
    unfold attributeExpr at ih ⊢
    have := (Takes.seqT (takes_ws hg) (Takes.rule .attribute ((takes_name hn).seqT ((takes_equals he).seqT (takes_attributeValue hv)
        (fun r _ => quotes_noHead hv r (by decide) (by decide)))
        (fun r _ => by rw [List.append_assoc]; exact equals_noHead he _ (fun c => space_not_name) (by decide))))
        (fun r _ => by rw [List.append_assoc]; exact name_noHead hn _ (fun c => start_not_space))).stepT
      (by simp [hg.1]) ih (fun _ _ => trivial)
    simpa only [List.append_assoc] using this

theorem gives_tag (n : Nat) (start close : String) : Gives n (tag start close) (fun t _ => Tag start close t) :=
  ((gives_lit n start).seq ((gives_attributes n).seq ((gives_ows n).seq (gives_lit n close)))).mono (by
    rintro t ps ⟨_, _, _, _, rfl, _, ⟨rfl, _⟩, a, _, _, _, rfl, _, h1, s, _, _, _, rfl, _, ⟨h2, _⟩, rfl, _⟩
    exact ⟨a, s, h1, h2, by simp⟩)

theorem takes_tag {start close : String} {t : List Char} (h : Tag start close t) (hc : close = ">" ∨ close = "/>") :
    Takes (tag start close) t (fun _ => True) (fun _ => True) := by
  obtain ⟨a, s, ha, hs, rfl⟩ := h
  have hcl : ∀ r : List Char, NoHead spaceB (close.toList ++ r) ∧ NoHead (within nameFirstRanges) (close.toList ++ r) := by
    intro r
    rcases hc with rfl | rfl
    · exact ⟨noHead_cons.2 (by decide), noHead_cons.2 (by decide)⟩
    · exact ⟨noHead_cons.2 (by decide), noHead_cons.2 (by decide)⟩
  unfold tag
  have := (takes_lit start (fun _ => True)).seqT ((takes_attributes ha).seqT ((takes_ows hs).seqT (takes_lit close (fun _ => True))
      (fun r _ => (hcl r).1))
      (fun r _ => ⟨s, close.toList ++ r, by simp, hs, (hcl r).1, (hcl r).2⟩))
    (fun _ _ => trivial)
  simpa only [List.append_assoc] using this

theorem gives_endTag (n : Nat) (start : String) : Gives n (endTag start) (fun t _ => EndTag start t) :=
  ((gives_lit n start).seq ((gives_ows n).seq (gives_lit n ">"))).mono (by
    rintro t ps ⟨_, _, _, _, rfl, _, ⟨rfl, _⟩, a, _, _, _, rfl, _, ⟨h1, _⟩, rfl, _⟩
    exact ⟨a, h1, by simp⟩)

theorem takes_endTag {start : String} {t : List Char} (h : EndTag start t) : Takes (endTag start) t (fun _ => True) (fun _ => True) := by
  obtain ⟨s, hs, rfl⟩ := h
  unfold endTag
  show Takes _ (start.toList ++ s ++ ">".toList) _ _
  have := (takes_lit start (fun _ => True)).seqT ((takes_ows hs).seqT (takes_lit ">" (fun _ => True))
      (fun r _ => noHead_cons.2 (by decide)))
    (fun _ _ => trivial)
  simpa only [List.append_assoc] using this

end Keramics.XmlPlist
