import Verif.Lemmas.XmlPlistElements
import Verif.Props.Base64

/-! Lemmas about the model of XML property lists: the objects that elements stand for. -/

namespace Keramics.XmlPlist

open Spec.Plist

/-! ### Numbers -/

theorem isDigit_iff (c : Char) : c.isDigit = true ↔ IsDigit c := by
  unfold Char.isDigit IsDigit
  simp only [ge_iff_le, Bool.and_eq_true, decide_eq_true_eq, UInt32.le_iff_toNat_le]
  rfl

theorem digit_text {c : Char} (h : IsDigit c) : (IsChar c ∧ c ≠ '<' ∧ c ≠ '&') ∧ c ≠ ']' ∧ c ≠ '+' ∧ c ≠ '-' := by
  obtain ⟨h1, h2⟩ := h
  have h1 : 48 ≤ c.toNat := h1
  have h2 : c.toNat ≤ 57 := h2
  refine ⟨⟨.inr (.inr (.inr ⟨by omega, by omega, by omega⟩)), ?_, ?_⟩, ?_, ?_, ?_⟩ <;> (rintro rfl; revert h1 h2; decide)

private theorem fold_ge (d : List Char) : ∀ N : Nat, N ≤ d.foldl (fun n c => n * 10 + (c.toNat - '0'.toNat)) N := by
  induction d with
  | nil => intro N; exact Nat.le_refl _
  | cons c d ih =>
    intro N
    refine Nat.le_trans ?_ (ih _)
    show N ≤ N * 10 + _
    omega

private theorem digits_pos (d : List Char) : ∀ (N : Nat) (m : Int), N < 2 ^ 63 →
    (i64Digits false d N = some m ↔ (∀ x ∈ d, IsDigit x) ∧ m = (d.foldl (fun n c => n * 10 + (c.toNat - '0'.toNat)) N : Nat) ∧ m < 2 ^ 63) := by
  induction d with
  | nil =>
    intro N m hN
    simp only [i64Digits, Option.some.injEq, List.not_mem_nil, false_implies, implies_true, List.foldl_nil, true_and]
    constructor
    · rintro rfl; exact ⟨rfl, by omega⟩
    · rintro ⟨rfl, _⟩; rfl
  | cons c d ih =>
    intro N m hN
    unfold i64Digits
    by_cases hc : c.isDigit = true
    · have hd := (isDigit_iff c).1 hc
      simp only [hc, if_true, Bool.false_eq_true, if_false, List.mem_cons, forall_eq_or_imp, hd, true_and, List.foldl_cons]
      have h0 : ('0'.toNat) = 48 := rfl
      rw [h0]
      have hcast : ((N : Int) * 10 + ((c.toNat - 48 : Nat) : Int)) = ((N * 10 + (c.toNat - 48) : Nat) : Int) := by push_cast; rfl
      rw [hcast]
      by_cases hb : N * 10 + (c.toNat - 48) < 2 ^ 63
      · rw [if_pos ⟨by omega, by omega⟩]
        exact ih _ m hb
      · rw [if_neg (by omega)]
        have := fold_ge d (N * 10 + (c.toNat - 48))
        rw [h0] at this
        constructor
        · intro h; cases h
        · rintro ⟨_, rfl, h⟩; omega
    · have hd : ¬ IsDigit c := fun h => hc ((isDigit_iff c).2 h)
      simp [hc, hd]

private theorem digits_neg (d : List Char) : ∀ (N : Nat) (m : Int), N ≤ 2 ^ 63 →
    (i64Digits true d (-(N : Int)) = some m ↔ (∀ x ∈ d, IsDigit x) ∧ m = -((d.foldl (fun n c => n * 10 + (c.toNat - '0'.toNat)) N : Nat) : Int) ∧ -2 ^ 63 ≤ m) := by
  induction d with
  | nil =>
    intro N m hN
    simp only [i64Digits, Option.some.injEq, List.not_mem_nil, false_implies, implies_true, List.foldl_nil, true_and]
    constructor
    · rintro rfl; exact ⟨rfl, by omega⟩
    · rintro ⟨rfl, _⟩; rfl
  | cons c d ih =>
    intro N m hN
    unfold i64Digits
    by_cases hc : c.isDigit = true
    · have hd := (isDigit_iff c).1 hc
      simp only [hc, if_true, List.mem_cons, forall_eq_or_imp, hd, true_and, List.foldl_cons]
      have h0 : ('0'.toNat) = 48 := rfl
      rw [h0]
      have hcast : (-(N : Int) * 10 - ((c.toNat - 48 : Nat) : Int)) = -((N * 10 + (c.toNat - 48) : Nat) : Int) := by omega
      rw [hcast]
      by_cases hb : N * 10 + (c.toNat - 48) ≤ 2 ^ 63
      · rw [if_pos ⟨by omega, by omega⟩]
        exact ih _ m hb
      · rw [if_neg (by omega)]
        have := fold_ge d (N * 10 + (c.toNat - 48))
        rw [h0] at this
        constructor
        · intro h; cases h
        · rintro ⟨_, rfl, h⟩; omega
    · have hd : ¬ IsDigit c := fun h => hc ((isDigit_iff c).2 h)
      simp [hc, hd]

theorem i64OfText_iff (c : List Char) (n : Int) : i64OfText c = some n ↔ IntegerText c n := by
  unfold IntegerText decimal
  have hpos : ∀ d : List Char, i64Digits false d 0 = some n ↔ (∀ x ∈ d, IsDigit x) ∧ n = (d.foldl (fun n c => n * 10 + (c.toNat - '0'.toNat)) 0 : Nat) ∧ n < 2 ^ 63 :=
    fun d => by simpa using digits_pos d 0 n (by decide)
  have hneg : ∀ d : List Char, i64Digits true d 0 = some n ↔ (∀ x ∈ d, IsDigit x) ∧ n = -((d.foldl (fun n c => n * 10 + (c.toNat - '0'.toNat)) 0 : Nat) : Int) ∧ -2 ^ 63 ≤ n :=
    fun d => by simpa using digits_neg d 0 n (by decide)
  unfold i64OfText
  cases c with
  | nil =>
    constructor
    · intro h; cases h
    · rintro ⟨_, _, d, hd, _, ⟨rfl | h, _⟩ | ⟨h, _⟩⟩
      · exact absurd rfl hd
      · cases h
      · cases h
  | cons x rest =>
    simp only
    by_cases h1 : x = '-'
    · subst h1
      rw [if_pos rfl]
      constructor
      · intro h
        by_cases hr : rest = []
        · rw [if_pos hr] at h; cases h
        · rw [if_neg hr, hneg] at h
          obtain ⟨h1, h2, h3⟩ := h
          exact ⟨h3, by omega, rest, hr, h1, .inr ⟨rfl, h2⟩⟩
      · rintro ⟨h3, _, d, hd, h1, ⟨rfl | h, _⟩ | ⟨h, h2⟩⟩
        · exact absurd rfl (digit_text (h1 _ List.mem_cons_self)).2.2.2
        · cases h
        · cases h
          rw [if_neg hd, hneg]
          exact ⟨h1, h2, h3⟩
    · rw [if_neg h1]
      by_cases h2 : x = '+'
      · subst h2
        rw [if_pos rfl]
        constructor
        · intro h
          by_cases hr : rest = []
          · rw [if_pos hr] at h; cases h
          · rw [if_neg hr, hpos] at h
            obtain ⟨h1, h2, h3⟩ := h
            exact ⟨by omega, h3, rest, hr, h1, .inl ⟨.inr rfl, h2⟩⟩
        · rintro ⟨_, h3, d, hd, h1, ⟨rfl | h, h2⟩ | ⟨h, h2⟩⟩
          · exact absurd rfl (digit_text (h1 _ List.mem_cons_self)).2.2.1
          · cases h
            rw [if_neg hd, hpos]
            exact ⟨h1, h2, h3⟩
          · cases h
      · rw [if_neg h2, hpos]
        constructor
        · rintro ⟨h3, h4, h5⟩
          exact ⟨by omega, h5, x :: rest, by simp, h3, .inl ⟨.inl rfl, h4⟩⟩
        · rintro ⟨_, h5, d, hd, h3, ⟨rfl | h, h4⟩ | ⟨h, _⟩⟩
          · exact ⟨h3, h4, h5⟩
          · cases h; exact absurd rfl h2
          · cases h; exact absurd rfl h1

theorem integer_text {c : List Char} {n : Int} (h : IntegerText c n) : Text c := by
  have hdig : ∀ d : List Char, (∀ x ∈ d, IsDigit x) → ∀ p : List Char, (p = [] ∨ p = ['+'] ∨ p = ['-']) → Text (p ++ d) := by
    intro d hd p hp
    have hall : ∀ x ∈ p ++ d, (IsChar x ∧ x ≠ '<' ∧ x ≠ '&') ∧ x ≠ ']' := by
      intro x hx
      rcases List.mem_append.1 hx with hx | hx
      · rcases hp with rfl | rfl | rfl
        · cases hx
        · rw [List.mem_singleton.1 hx]; unfold IsChar; decide
        · rw [List.mem_singleton.1 hx]; unfold IsChar; decide
      · exact ⟨(digit_text (hd x hx)).1, (digit_text (hd x hx)).2.1⟩
    refine ⟨fun x hx => (hall x hx).1, fun hi => ?_⟩
    exact (hall ']' (hi.subset (by simp))).2 rfl
  obtain ⟨_, _, d, _, hd, ⟨rfl | rfl, _⟩ | ⟨rfl, _⟩⟩ := h
  · exact hdig c hd [] (.inl rfl)
  · exact hdig d hd ['+'] (.inr (.inl rfl))
  · exact hdig d hd ['-'] (.inr (.inr rfl))

/-! ### Data -/

/-- A stream that skips white space, and one of the text without white space. -/
private def Same (s s' : Base64.State) : Prop :=
  s.skip = true ∧ s'.skip = false ∧ s'.rest = s.rest.filter (fun b => ! Spec.Base64.isSpace b) ∧ s'.bits = s.bits ∧ s'.nb = s.nb ∧ s'.found = s.found

private theorem fill_same (rest : List Byte) : ∀ o o' bits nb,
    (∃ s s', Base64.fill true rest o bits nb = .ok s ∧ Base64.fill false (rest.filter fun b => ! Spec.Base64.isSpace b) o' bits nb = .ok s' ∧ Same s s') ∨
    (Base64.fill true rest o bits nb = .err ∧ Base64.fill false (rest.filter fun b => ! Spec.Base64.isSpace b) o' bits nb = .err) := by
  induction rest with
  | nil =>
    intro o o' bits nb
    left
    unfold Base64.fill
    by_cases h : nb < 8
    · exact ⟨⟨[], o, bits, nb, true, false⟩, ⟨[], o', bits, nb, false, false⟩, by simp [h], by simp [h], rfl, rfl, rfl, rfl, rfl, rfl⟩
    · exact ⟨⟨[], o, bits, nb, true, false⟩, ⟨[], o', bits, nb, false, false⟩, by simp [h], by simp [h], rfl, rfl, rfl, rfl, rfl, rfl⟩
  | cons b rest ih =>
    intro o o' bits nb
    by_cases h : nb < 8
    · by_cases hs : Spec.Base64.isSpace b = true
      · have hk := (Props.kind_space b).2 hs
        have h1 : Base64.fill true (b :: rest) o bits nb = Base64.fill true rest (o + 1) bits nb := by
          conv_lhs => unfold Base64.fill
          simp [h, hk]
        rw [h1, List.filter_cons_of_neg (by simp [hs])]
        exact ih (o + 1) o' bits nb
      · have hs' : Spec.Base64.isSpace b = false := by simpa using hs
        have hk : Base64.kind b ≠ .space := fun h => hs ((Props.kind_space b).1 h)
        rw [List.filter_cons_of_pos (by simp [hs'])]
        unfold Base64.fill
        rw [if_pos h, if_pos h]
        simp only
        cases hkb : Base64.kind b with
        | sixtet v => exact ih (o + 1) (o' + 1) _ _
        | padding => exact .inl ⟨_, _, rfl, rfl, rfl, rfl, by simp [hs'], rfl, rfl, rfl⟩
        | space => exact absurd hkb hk
        | invalid => exact .inr ⟨rfl, rfl⟩
    · left
      unfold Base64.fill
      exact ⟨⟨b :: rest, o, bits, nb, true, false⟩, ⟨(b :: rest).filter fun b => ! Spec.Base64.isSpace b, o', bits, nb, false, false⟩, by rw [if_neg h], by rw [if_neg h],
        rfl, rfl, rfl, rfl, rfl, rfl⟩

private theorem getValue_same {s s' : Base64.State} (h : Same s s') :
    (∃ v t t', Base64.getValue s = .ok (v, t) ∧ Base64.getValue s' = .ok (v, t') ∧ Same t t') ∨ (Base64.getValue s = .err ∧ Base64.getValue s' = .err) := by
  have key : ∀ t t', Same t t' → (Base64.takeByte t).1 = (Base64.takeByte t').1 ∧ Same (Base64.takeByte t).2 (Base64.takeByte t').2 := by
    rintro t t' ⟨h1, h2, h3, h4, h5, h6⟩
    unfold Base64.takeByte
    rw [h4, h5]
    by_cases hn : t.nb < 8
    · rw [if_pos hn, if_pos hn]; exact ⟨rfl, h1, h2, h3, h4, h5, h6⟩
    · rw [if_neg hn, if_neg hn]; exact ⟨rfl, h1, h2, h3, rfl, rfl, h6⟩
  obtain ⟨rest, o, bits, nb, skip, found⟩ := s
  obtain ⟨rest', o', bits', nb', skip', found'⟩ := s'
  have h0 := h
  obtain ⟨h1, h2, h3, h4, h5, h6⟩ := h
  simp only at h1 h2 h3 h4 h5 h6
  subst h1 h2 h3 h4 h5 h6
  unfold Base64.getValue Base64.refill
  simp only
  cases found' with
  | true =>
    left
    have := key _ _ h0
    exact ⟨_, _, _, rfl, by simp only [if_true, R.ok_bind, R.pure_eq]; rw [R.ok.injEq]; exact Prod.ext this.1.symm rfl, this.2⟩
  | false =>
    simp only [Bool.false_eq_true, if_false]
    rcases fill_same rest o o' bits' nb' with ⟨s, s', h1, h2, h3⟩ | ⟨h1, h2⟩
    · left
      have := key _ _ h3
      rw [h1, h2]
      exact ⟨_, _, _, rfl, by simp only [R.ok_bind, R.pure_eq]; rw [R.ok.injEq]; exact Prod.ext this.1.symm rfl, this.2⟩
    · right
      rw [h1, h2]
      exact ⟨rfl, rfl⟩

private theorem values_same (m : Nat) : ∀ s s' : Base64.State, s.rest.length * 6 + s.nb ≤ m → Same s s' →
    (∃ v t t', Base64.values s = .ok (v, t) ∧ Base64.values s' = .ok (v, t')) ∨ (Base64.values s = .err ∧ Base64.values s' = .err) := by
  induction m using Nat.strongRecOn with
  | ind m ih =>
    intro s s' hm h
    rcases getValue_same h with ⟨v, t, t', h1, h2, h3⟩ | ⟨h1, h2⟩
    · cases v with
      | none =>
        left
        exact ⟨[], t, t', by rw [Props.values_eq, h1], by rw [Props.values_eq, h2]⟩
      | some v =>
        have hlt := Base64.getValue_measure h1
        rcases ih _ (Nat.lt_of_lt_of_le hlt hm) t t' (Nat.le_refl _) h3 with ⟨w, u, u', h4, h5⟩ | ⟨h4, h5⟩
        · left
          exact ⟨v :: w, u, u', by rw [Props.values_eq, h1]; simp only [h4], by rw [Props.values_eq, h2]; simp only [h5]⟩
        · right
          exact ⟨by rw [Props.values_eq, h1]; simp only [h4], by rw [Props.values_eq, h2]; simp only [h5]⟩
    · right
      exact ⟨by rw [Props.values_eq, h1], by rw [Props.values_eq, h2]⟩

theorem values_data (c : List Char) (b : List Byte) : (∃ t, Base64.values (Base64.State.new (utf8 c) true) = .ok (b, t)) ↔ DataText c b := by
  unfold DataText
  have hfl : (c.flatMap fun x => Spec.Utf8.encode x.toNat) = utf8 c := rfl
  rw [hfl]
  have hv := values_same _ (Base64.State.new (utf8 c) true) (Base64.State.new ((utf8 c).filter fun b => ! Spec.Base64.isSpace b) false) (Nat.le_refl _) ⟨rfl, rfl, rfl, rfl, rfl, rfl⟩
  generalize (utf8 c).filter (fun b => ! Spec.Base64.isSpace b) = l at hv ⊢
  have hiff : (∃ t, Base64.values (Base64.State.new (utf8 c) true) = .ok (b, t)) ↔ ∃ t, Base64.values (Base64.State.new l false) = .ok (b, t) := by
    rcases hv with ⟨v, t, t', h1, h2⟩ | ⟨h1, h2⟩
    · rw [h1, h2]
      constructor
      · rintro ⟨_, h⟩; cases h; exact ⟨_, rfl⟩
      · rintro ⟨_, h⟩; cases h; exact ⟨_, rfl⟩
    · rw [h1, h2]
  rw [hiff]
  have hb : ∀ cs, Props.bytesFrom 0 0 cs = Spec.Base64.bytesOf cs := by
    intro cs
    unfold Props.bytesFrom Spec.Base64.bytesOf Spec.Base64.number
    simp
  have hpad : Spec.Base64.isChar Spec.Base64.pad = false := by decide
  constructor
  · rintro ⟨t, h⟩
    have hd : l = l.takeWhile Spec.Base64.isChar ++ l.dropWhile Spec.Base64.isChar := List.takeWhile_append_dropWhile.symm
    have hcs : ∀ x ∈ l.takeWhile Spec.Base64.isChar, Spec.Base64.isChar x = true := fun x hx => by
      have := List.all_takeWhile (l := l) (p := Spec.Base64.isChar)
      exact List.all_eq_true.1 this x hx
    have hr : ∀ x ∈ (l.dropWhile Spec.Base64.isChar).head?, Spec.Base64.isChar x = false := by
      intro x hx
      have := List.head?_dropWhile_not (p := Spec.Base64.isChar) l
      rw [hx] at this
      simpa using this
    have := Props.values_chars (l.dropWhile Spec.Base64.isChar) (l.takeWhile Spec.Base64.isChar) 0 0 0 hcs (by decide) (by decide) hr
    rw [← hd] at this
    unfold Base64.State.new at h
    rw [h] at this
    by_cases hp : l.dropWhile Spec.Base64.isChar = [] ∨ (l.dropWhile Spec.Base64.isChar).head? = some Spec.Base64.pad
    · rw [if_pos hp, R.ok.injEq, Prod.mk.injEq] at this
      exact ⟨_, _, hd, hcs, hp, by rw [this.1, hb]⟩
    · rw [if_neg hp] at this; cases this
  · rintro ⟨cs, rest, rfl, hcs, hp, rfl⟩
    have := Props.values_chars rest cs 0 0 0 hcs (by decide) (by decide) (by
      rcases hp with rfl | hp
      · simp
      · rw [hp]; simpa using hpad)
    rw [if_pos hp, hb] at this
    exact ⟨_, this⟩

theorem values_ne_panic (m : Nat) : ∀ s : Base64.State, s.rest.length * 6 + s.nb ≤ m → Base64.values s ≠ .panic := by
  induction m using Nat.strongRecOn with
  | ind m ih =>
    intro s hm h
    rw [Props.values_eq] at h
    cases hg : Base64.getValue s with
    | err => rw [hg] at h; cases h
    | panic => exact Props.getValue_ne_panic s hg
    | ok r =>
      obtain ⟨v, t⟩ := r
      rw [hg] at h
      cases v with
      | none => cases h
      | some v =>
        simp only at h
        have := ih _ (Nat.lt_of_lt_of_le (Base64.getValue_measure hg) hm) t (Nat.le_refl _)
        cases hv : Base64.values t with
        | ok r => rw [hv] at h; cases h
        | err => rw [hv] at h; cases h
        | panic => exact this hv

end Keramics.XmlPlist
