import Verif.Base.Tactics
import Verif.Lemmas.Windows932
import Verif.Spec.Windows932

/-! Property theorems: Windows 932 (C73). -/

namespace Keramics.Props
open Keramics Keramics.Windows932 Spec.Windows932

namespace W932

theorem next_pair {b a : Byte} (h : isLead b.toNat = true) (rest : List Byte) :
    next (b :: a :: rest) = some (decodeBytes b.toNat a.toNat, rest) := by
  simp [next, h]

theorem next_one {b : Byte} (h : isLead b.toNat = false) (rest : List Byte) :
    next (b :: rest) = some (decodeBytes b.toNat 0, rest) := by
  simp [next, h]

theorem isLead_first {b : Byte} (h : isLead b.toNat = true) : first b := by
  simp only [isLead, Bool.or_eq_true, Bool.and_eq_true, decide_eq_true_eq] at h
  unfold first
  omega

theorem isEnd_second {a : Byte} (h : isEnd a.toNat = true) : second a := by
  simp only [isEnd, Bool.and_eq_true, Nat.ble_eq, Bool.not_eq_true', ← Bool.not_eq_true,
    Nat.beq_eq] at h
  exact ⟨h.1.1, h.1.2, h.2⟩

theorem isScalar_scalar {c : Nat} (h : isScalar c = true) : scalar c := by
  simp only [isScalar, Bool.or_eq_true, Bool.and_eq_true, Nat.ble_eq, Nat.blt_eq] at h
  exact h

theorem isSecond_iff (b a : Byte) : isSecond b.toNat a.toNat = true ↔ Second [b, a] := by
  have e : ∀ (x : Byte) (k : Nat), k < 256 → (x.toNat = k ↔ x = BitVec.ofNat 8 k) := by
    intro x k hk
    rw [← BitVec.toNat_inj, BitVec.toNat_ofNat, Nat.mod_eq_of_lt (by simpa using hk)]
  have l : [0x90, 0x91, 0x92, 0x95, 0x96, 0x97, 0x9a, 0x9b, 0x9c].any (Nat.beq a.toNat) = true ↔
      a ∈ [0x90#8, 0x91#8, 0x92#8, 0x95#8, 0x96#8, 0x97#8, 0x9a#8, 0x9b#8, 0x9c#8] := by
    simp only [List.any_cons, List.any_nil, Bool.or_false, Bool.or_eq_true, Nat.beq_eq,
      List.mem_cons, List.not_mem_nil, or_false]
    rw [e a _ (by omega), e a _ (by omega), e a _ (by omega), e a _ (by omega), e a _ (by omega),
      e a _ (by omega), e a _ (by omega), e a _ (by omega), e a _ (by omega)]
  simp only [isSecond, Bool.or_eq_true, Bool.and_eq_true, Nat.ble_eq, Nat.beq_eq, l]
  rw [e b 0x87 (by omega), e b 0xee (by omega), e a 0xf9 (by omega), Second]
  constructor
  · intro h; exact ⟨b, a, rfl, by rcases h with (h | h) | h <;> simp [h]⟩
  · rintro ⟨b', a', h, h2⟩
    obtain ⟨rfl, h3⟩ := List.cons.inj h
    obtain ⟨rfl, -⟩ := List.cons.inj h3
    rcases h2 with h2 | h2 | h2
    · exact Or.inl (Or.inl h2)
    · exact Or.inl (Or.inr h2)
    · exact Or.inr h2

theorem not_second_one (b : Byte) : ¬ Second [b] := by
  rintro ⟨b', a', h, -⟩
  simp at h

theorem encodePoint_ok {c : Nat} {bs : List Byte} (h : encodePoint c = .ok bs) :
    ∃ v, encodeEntry c = .ok v ∧ bs = entryBytes v := by
  obtain ⟨v, h1, h2⟩ := R.bind_eq_ok.1 h
  exact ⟨v, h1, (R.ok.inj h2).symm⟩

/-- What the encoder gives for a code point is read back as this code point, whatever follows. -/
theorem point_next {c : Nat} {bs : List Byte} (h : encodePoint c = .ok bs) (rest : List Byte) :
    next (bs ++ rest) = some (.ok c, rest) := by
  obtain ⟨v, hv, rfl⟩ := encodePoint_ok h
  have hp := pointOk_all c
  rw [pointOk, fast_eq, hv] at hp
  simp only [entryOk] at hp
  by_cases h1 : v < 256
  · have h2 : Nat.blt v 256 = true := by rw [Nat.blt_eq]; exact h1
    rw [h2] at hp
    simp only [cond_true, Bool.and_eq_true, Bool.not_eq_true'] at hp
    have e : (BitVec.ofNat 8 v).toNat = v := by
      rw [BitVec.toNat_ofNat]; exact Nat.mod_eq_of_lt (by simpa using h1)
    rw [entryBytes, if_pos h1, List.cons_append, List.nil_append, next_one (by rw [e]; exact hp.1), e]
    split at hp
    · rename_i d hd
      rw [hd, Nat.eq_of_beq_eq_true hp.2]
    · simp at hp
  · have h2 : Nat.blt v 256 = false := by rw [← Bool.not_eq_true, Nat.blt_eq]; exact h1
    rw [h2] at hp
    simp only [cond_false, Bool.and_eq_true, Nat.blt_eq] at hp
    have e1 : (BitVec.ofNat 8 (v / 256)).toNat = v / 256 := by
      rw [BitVec.toNat_ofNat]; exact Nat.mod_eq_of_lt (by omega)
    have e2 : (BitVec.ofNat 8 v).toNat = v % 256 := by rw [BitVec.toNat_ofNat]
    rw [entryBytes, if_neg h1, List.cons_append, List.cons_append, List.nil_append,
      next_pair (by rw [e1]; exact hp.1.2), e1, e2]
    split at hp
    · rename_i d hd
      rw [hd, Nat.eq_of_beq_eq_true hp.2]
    · simp at hp

/-- A character that the decoder accepts. -/
theorem next_point {bs rest : List Byte} {c : Nat} (h : next bs = some (.ok c, rest)) :
    ∃ ch, bs = ch ++ rest ∧ Char ch ∧ scalar c ∧
      ∃ e, encodePoint c = .ok e ∧ e.length = ch.length ∧ (e = ch ↔ ¬ Second ch) := by
  match bs, h with
  | [], h => simp [next] at h
  | b :: bs, h =>
    have hb := byteOk_all b.toNat b.isLt
    by_cases hl : isLead b.toNat = true
    · match bs, h with
      | [], h => simp [next, hl] at h
      | a :: bs, h =>
        rw [next_pair hl] at h
        simp only [Option.some.injEq, Prod.mk.injEq] at h
        obtain ⟨hd, rfl⟩ := h
        rw [byteOk, hl] at hb
        have hp := allBelow_of hb a.toNat a.isLt
        rw [pairOk, hd] at hp
        simp only [Bool.and_eq_true] at hp
        refine ⟨[b, a], rfl, .two (isLead_first hl) (isEnd_second hp.1.1), isScalar_scalar hp.1.2, ?_⟩
        rw [fast_eq] at hp
        split at hp
        · rename_i v hv
          simp only [Bool.and_eq_true, Nat.ble_eq, beq_iff_eq] at hp
          obtain ⟨-, h1, h2⟩ := hp
          have h3 : ¬ v < 256 := by omega
          refine ⟨entryBytes v, by rw [encodePoint, hv]; rfl, by rw [entryBytes, if_neg h3]; rfl, ?_⟩
          rw [← isSecond_iff, entryBytes, if_neg h3]
          have h4 : Nat.beq v (b.toNat * 256 + a.toNat) = true ↔ ¬ isSecond b.toNat a.toNat = true := by
            rw [h2]; simp
          rw [← h4, Nat.beq_eq]
          have hpt := pointOk_all c
          rw [pointOk, fast_eq, hv] at hpt
          have h5 : v < 65536 := by
            simp only [entryOk] at hpt
            rw [show Nat.blt v 256 = false by rw [← Bool.not_eq_true, Nat.blt_eq]; exact h3] at hpt
            simp only [cond_false, Bool.and_eq_true, Nat.blt_eq] at hpt
            exact hpt.1.1
          have ha := a.isLt
          have hb := b.isLt
          constructor
          · intro h
            obtain ⟨e1, h6⟩ := List.cons.inj h
            obtain ⟨e2, -⟩ := List.cons.inj h6
            have e1 := congrArg BitVec.toNat e1
            have e2 := congrArg BitVec.toNat e2
            rw [BitVec.toNat_ofNat] at e1 e2
            omega
          · intro h
            have e1 : BitVec.ofNat 8 (v / 256) = b := by
              apply BitVec.eq_of_toNat_eq; rw [BitVec.toNat_ofNat]; omega
            have e2 : BitVec.ofNat 8 v = a := by
              apply BitVec.eq_of_toNat_eq; rw [BitVec.toNat_ofNat]; omega
            rw [e1, e2]
        · simp at hp
    · have hl : isLead b.toNat = false := by simpa using hl
      rw [next_one hl] at h
      simp only [Option.some.injEq, Prod.mk.injEq] at h
      obtain ⟨hd, rfl⟩ := h
      rw [byteOk, hl, cond_false, hd] at hb
      simp only [Bool.and_eq_true, Bool.or_eq_true, Nat.blt_eq, Nat.ble_eq] at hb
      refine ⟨[b], rfl, .one hb.1.1, isScalar_scalar hb.1.2, ?_⟩
      rw [fast_eq] at hb
      split at hb
      · rename_i v hv
        have e := Nat.eq_of_beq_eq_true hb.2
        subst e
        have h1 : entryBytes b.toNat = [b] := by
          rw [entryBytes, if_pos b.isLt]
          simp
        exact ⟨[b], by rw [encodePoint, hv]; simp [h1], rfl, by simp [not_second_one]⟩
      · simp at hb

theorem next_ne_panic {bs rest : List Byte} : next bs ≠ some (.panic, rest) := by
  intro h
  match bs, h with
  | [], h => simp [next] at h
  | b :: bs, h =>
    have hb := byteOk_all b.toNat b.isLt
    by_cases hl : isLead b.toNat = true
    · match bs, h with
      | [], h => simp [next, hl] at h
      | a :: bs, h =>
        rw [next_pair hl] at h
        simp only [Option.some.injEq, Prod.mk.injEq] at h
        rw [byteOk, hl] at hb
        have hp := allBelow_of hb a.toNat a.isLt
        rw [pairOk, h.1] at hp
        simp at hp
    · have hl : isLead b.toNat = false := by simpa using hl
      rw [next_one hl] at h
      simp only [Option.some.injEq, Prod.mk.injEq] at h
      rw [byteOk, hl, cond_false, h.1] at hb
      simp at hb

theorem next_shorter {bs rest : List Byte} {r : R Nat} (h : next bs = some (r, rest)) :
    rest.length < bs.length := by
  match bs, h with
  | [], h => simp [next] at h
  | b :: bs, h =>
    rw [next.eq_def] at h
    simp only at h
    split at h
    · match bs, h with
      | [], h => simp only [Option.some.injEq, Prod.mk.injEq] at h; rw [← h.2]; simp
      | a :: bs, h =>
        simp only [Option.some.injEq, Prod.mk.injEq] at h; rw [← h.2]; simp only [List.length_cons]
        omega
    · simp only [Option.some.injEq, Prod.mk.injEq] at h; rw [← h.2]; simp

theorem next_none {bs : List Byte} : next bs = none ↔ bs = [] := by
  match bs with
  | [] => simp [next]
  | b :: bs =>
    rw [next.eq_def]
    simp only
    split
    · split <;> simp
    · simp

theorem decodeLoop_fuel (f : Nat) (bs : List Byte) (h : bs.length < f) :
    decodeLoop f bs = decode bs := by
  suffices hs : ∀ (n f g : Nat) (bs : List Byte), bs.length ≤ n → bs.length < f → bs.length < g →
      decodeLoop f bs = decodeLoop g bs from hs _ _ _ bs (Nat.le_refl _) h (Nat.lt_succ_self _)
  intro n
  induction n with
  | zero =>
    intro f g bs h1 h2 h3
    have : bs = [] := List.length_eq_zero_iff.1 (by omega)
    subst this
    match f, g, h2, h3 with
    | f + 1, g + 1, _, _ => rfl
  | succ n ih =>
    intro f g bs h1 h2 h3
    match f, g, h2, h3 with
    | f + 1, g + 1, h2, h3 =>
      rw [decodeLoop, decodeLoop]
      split
      · rfl
      · rename_i r rest hn
        have := next_shorter hn
        rw [ih f g rest (by omega) (by omega) (by omega)]

theorem decode_nil : decode [] = .ok [] := rfl

theorem decode_next {bs rest : List Byte} {r : R Nat} (h : next bs = some (r, rest)) :
    decode bs = (do let c ← r; let cs ← decode rest; return c :: cs) := by
  rw [decode, decodeLoop, h]
  simp only
  rw [decodeLoop_fuel _ _ (next_shorter h)]

end W932

open W932

/-- C73, one character. The bytes of a code point that can be encoded have the form of one character,
and the decoder gives the code point back from them and goes on behind them, whatever follows. -/
theorem C73_points (c : Nat) (bs : List Byte) (h : encodePoint c = .ok bs) (rest : List Byte) :
    Char bs ∧ scalar c ∧ ¬ Second bs ∧ next (bs ++ rest) = some (.ok c, rest) := by
  have hn := point_next h rest
  obtain ⟨ch, h1, h2, h3, e, h4, h5, h6⟩ := next_point hn
  have : ch = bs := (List.append_cancel_right h1).symm
  subst this
  rw [h] at h4
  exact ⟨h2, h3, h6.1 (R.ok.inj h4).symm, hn⟩

example : encodePoint 0x65e5 = .ok [0x93#8, 0xfa#8] ∧ Char [0x93#8, 0xfa#8] :=
  ⟨by decide +kernel, .two (by unfold first; decide) (by unfold second; decide)⟩

/-- C73. What was encoded is decoded to the same code points, for strings of any length. -/
theorem C73_strings (cs : List Nat) (bs : List Byte) (h : encode cs = .ok bs) :
    decode bs = .ok cs := by
  induction cs generalizing bs with
  | nil => rw [encode, R.ok.injEq] at h; subst h; rfl
  | cons c cs ih =>
    rw [encode] at h
    obtain ⟨b, hb, h⟩ := R.bind_eq_ok.1 h
    obtain ⟨bs', hbs, h⟩ := R.bind_eq_ok.1 h
    rw [R.pure_eq, R.ok.injEq] at h
    subst h
    rw [decode_next (point_next hb bs'), R.ok_bind, ih _ hbs]
    rfl

example : encode [0x65e5, 0x672c, 0x8a9e, 0x41, 0xff71] =
    .ok [0x93#8, 0xfa#8, 0x96#8, 0x7b#8, 0x8c#8, 0xea#8, 0x41#8, 0xb1#8] := by decide +kernel

/-- C73, the other way. A string that is decoded consists of characters; its code points are no
surrogates and can all be encoded again, to a string of the same length that is decoded to the same
code points. It is the same string if and only if no character has its second code. Missing: the
characters of `C73_violated`. -/
theorem C73_bytes_partial (bs : List Byte) (cs : List Nat) (h : decode bs = .ok cs) :
    ∃ chars : List (List Byte), bs = chars.flatten ∧ chars.length = cs.length ∧
      (∀ ch ∈ chars, Char ch) ∧ (∀ c ∈ cs, scalar c) ∧
      ∃ bs', encode cs = .ok bs' ∧ decode bs' = .ok cs ∧ bs'.length = bs.length ∧
        (bs' = bs ↔ ∀ ch ∈ chars, ¬ Second ch) := by
  suffices hs : ∀ (n : Nat) (bs : List Byte) (cs : List Nat), bs.length ≤ n → decode bs = .ok cs →
      ∃ chars : List (List Byte), bs = chars.flatten ∧ chars.length = cs.length ∧
      (∀ ch ∈ chars, Char ch) ∧ (∀ c ∈ cs, scalar c) ∧
      ∃ bs', encode cs = .ok bs' ∧ bs'.length = bs.length ∧
        (bs' = bs ↔ ∀ ch ∈ chars, ¬ Second ch) by
    obtain ⟨chars, h1, h2, h3, h4, bs', h5, h6, h7⟩ := hs _ bs cs (Nat.le_refl _) h
    exact ⟨chars, h1, h2, h3, h4, bs', h5, C73_strings _ _ h5, h6, h7⟩
  intro n
  induction n with
  | zero =>
    intro bs cs h1 h2
    have : bs = [] := List.length_eq_zero_iff.1 (by omega)
    subst this
    rw [decode_nil, R.ok.injEq] at h2
    subst h2
    exact ⟨[], rfl, rfl, by simp, by simp, [], rfl, rfl, by simp⟩
  | succ n ih =>
    intro bs cs h1 h2
    match hn : next bs with
    | none =>
      have := next_none.1 hn
      subst this
      exact ih [] cs (by simp) h2
    | some (r, rest) =>
      rw [decode_next hn] at h2
      obtain ⟨c, hr, h5⟩ := R.bind_eq_ok.1 h2
      subst hr
      obtain ⟨cs', h3, h6⟩ := R.bind_eq_ok.1 h5
      rw [R.pure_eq, R.ok.injEq] at h6
      subst h6
      have hs := next_shorter hn
      obtain ⟨chars, i1, i2, i3, i4, bs', i5, i6, i7⟩ := ih rest cs' (by omega) h3
      obtain ⟨ch, e1, e2, e3, e, e4, e5, e6⟩ := next_point hn
      refine ⟨ch :: chars, by rw [e1, List.flatten_cons, ← i1], by simp [i2], ?_, ?_, e ++ bs', ?_, ?_, ?_⟩
      · intro x hx; rcases List.mem_cons.1 hx with rfl | hx
        · exact e2
        · exact i3 x hx
      · intro x hx; rcases List.mem_cons.1 hx with rfl | hx
        · exact e3
        · exact i4 x hx
      · rw [encode, e4, R.ok_bind, i5]; rfl
      · rw [e1, List.length_append, List.length_append, e5, i6]
      · rw [e1, List.forall_mem_cons, ← e6, ← i7]
        constructor
        · intro h; exact List.append_inj h e5
        · rintro ⟨rfl, rfl⟩; rfl

example : decode [0x93#8, 0xfa#8, 0xfa#8, 0x40#8, 0x41#8] = .ok [0x65e5, 0x2170, 0x41] ∧
    encode [0x65e5, 0x2170, 0x41] = .ok [0x93#8, 0xfa#8, 0xee#8, 0xef#8, 0x41#8] := by decide +kernel

/-- C73 is false as stated for bytes: some characters have two codes, and only one of them is
written. -/
theorem C73_violated :
    (decode [0x87#8, 0x90#8] = .ok [0x2252] ∧ encode [0x2252] = .ok [0x81#8, 0xe0#8]) ∧
    (decode [0xfa#8, 0x40#8] = .ok [0x2170] ∧ encode [0x2170] = .ok [0xee#8, 0xef#8]) := by
  decide +kernel

/-- C73. No string of bytes and no list of numbers makes the coders index outside their tables, and
decoding ends. -/
theorem C73_no_panic (bs : List Byte) (cs : List Nat) : decode bs ≠ .panic ∧ encode cs ≠ .panic := by
  constructor
  · suffices hs : ∀ (n : Nat) (bs : List Byte), bs.length ≤ n → decode bs ≠ .panic from
      hs _ bs (Nat.le_refl _)
    intro n
    induction n with
    | zero =>
      intro bs h
      have : bs = [] := List.length_eq_zero_iff.1 (by omega)
      subst this
      simp [decode_nil]
    | succ n ih =>
      intro bs h
      match hn : next bs with
      | none =>
        have := next_none.1 hn
        subst this
        simp [decode_nil]
      | some (.panic, rest) => exact absurd hn next_ne_panic
      | some (.err, rest) => rw [decode_next hn]; simp
      | some (.ok c, rest) =>
        rw [decode_next hn, R.ok_bind]
        have := ih rest (by have := next_shorter hn; omega)
        cases hd : decode rest with
        | ok x => simp
        | err => simp
        | panic => exact absurd hd this
  · induction cs with
    | nil => simp [encode]
    | cons c cs ih =>
      have hp := pointOk_all c
      rw [pointOk, fast_eq] at hp
      rw [encode, encodePoint]
      cases he : encodeEntry c with
      | panic => rw [he] at hp; simp at hp
      | err => simp
      | ok v =>
        cases hd : encode cs with
        | ok x => simp
        | err => simp
        | panic => exact absurd hd ih

/-- C73. What is refused: the first byte of a character at the end of the string, a first byte before
a byte that ends no character, bytes that neither are nor start a character, and the rows 0xf0 to 0xf9
(which Windows maps to the private use area). -/
theorem C73_refused (b : Byte) :
    (first b → ∃ rest, next [b] = some (.err, rest)) ∧
    (∀ a bs, first b → ¬ second a → ∃ rest, next (b :: a :: bs) = some (.err, rest)) ∧
    (∀ bs, ¬ first b → ¬ single b → ∃ rest, next (b :: bs) = some (.err, rest)) ∧
    (∀ a bs, 0xf0 ≤ b.toNat → b.toNat ≤ 0xf9 → next (b :: a :: bs) = some (.err, bs)) := by
  have key : ∀ bs, (∀ c rest, next (b :: bs) ≠ some (.ok c, rest)) →
      ∃ rest, next (b :: bs) = some (.err, rest) := by
    intro bs h
    match hn : next (b :: bs) with
    | none => simpa using next_none.1 hn
    | some (.ok c, rest) => exact absurd hn (h c rest)
    | some (.err, rest) => exact ⟨rest, rfl⟩
    | some (.panic, rest) => exact absurd hn next_ne_panic
  have notboth : first b → ¬ single b := by unfold first single; omega
  refine ⟨?_, ?_, ?_, ?_⟩
  · intro hb
    apply key
    intro c rest hn
    obtain ⟨ch, h1, h2, -⟩ := next_point hn
    cases h2 with
    | one h => obtain ⟨rfl, -⟩ := List.cons.inj h1; exact notboth hb h
    | two h h' => simp at h1
  · intro a bs hb ha
    apply key
    intro c rest hn
    obtain ⟨ch, h1, h2, -⟩ := next_point hn
    cases h2 with
    | one h => obtain ⟨rfl, -⟩ := List.cons.inj h1; exact notboth hb h
    | two h h' =>
      have h3 := (List.cons.inj (List.cons.inj h1).2).1
      rw [h3] at ha
      exact ha h'
  · intro bs h1 h2
    apply key
    intro c rest hn
    obtain ⟨ch, h3, h4, -⟩ := next_point hn
    cases h4 with
    | one h => obtain ⟨rfl, -⟩ := List.cons.inj h3; exact h2 h
    | two h h' => obtain ⟨rfl, -⟩ := List.cons.inj h3; exact h1 h
  · intro a bs h1 h2
    have hl : isLead b.toNat = true := by
      simp only [isLead, Bool.or_eq_true, Bool.and_eq_true, decide_eq_true_eq]; omega
    rw [next_pair hl]
    have : decodeBytes b.toNat a.toNat = .err := by
      rw [decodeBytes]
      repeat rw [if_neg (by omega)]
    rw [this]

example : decode [0x41#8, 0x93#8] = .err ∧ decode [0x93#8, 0x7f#8] = .err ∧
    decode [0xa0#8] = .err ∧ decode [0xf0#8, 0x40#8] = .err := by decide +kernel

/-- C73. ASCII is coded as itself. -/
theorem C73_ascii (bs : List Byte) (h : ∀ b ∈ bs, b.toNat < 0x80) :
    decode bs = .ok (bs.map BitVec.toNat) ∧ encode (bs.map BitVec.toNat) = .ok bs := by
  suffices he : encode (bs.map BitVec.toNat) = .ok bs from ⟨C73_strings _ _ he, he⟩
  induction bs with
  | nil => rfl
  | cons b bs ih =>
    have hb := h b List.mem_cons_self
    rw [List.map_cons, encode, ih fun x hx => h x (List.mem_cons_of_mem _ hx)]
    have h1 : encodePoint b.toNat = .ok [b] := by
      rw [encodePoint, encodeEntry, if_pos hb, R.ok_bind, entryBytes, if_pos b.isLt]
      simp
    rw [h1]; rfl

/-- C73. The blocks of the code page that follow the order of Unicode, in both directions: half-width
katakana, full-width digits and letters, hiragana, katakana (which leaves out the byte 0x7f), and the
capital letters of Greek (which leave out U+03a2). -/
theorem C73_alphabets :
    (∀ i < 63, decode [BitVec.ofNat 8 (0xa1 + i)] = .ok [0xff61 + i] ∧
      encode [0xff61 + i] = .ok [BitVec.ofNat 8 (0xa1 + i)]) ∧
    (∀ i < 10, decode [0x82#8, BitVec.ofNat 8 (0x4f + i)] = .ok [0xff10 + i] ∧
      encode [0xff10 + i] = .ok [0x82#8, BitVec.ofNat 8 (0x4f + i)]) ∧
    (∀ i < 26, decode [0x82#8, BitVec.ofNat 8 (0x60 + i)] = .ok [0xff21 + i] ∧
      encode [0xff21 + i] = .ok [0x82#8, BitVec.ofNat 8 (0x60 + i)]) ∧
    (∀ i < 26, decode [0x82#8, BitVec.ofNat 8 (0x81 + i)] = .ok [0xff41 + i] ∧
      encode [0xff41 + i] = .ok [0x82#8, BitVec.ofNat 8 (0x81 + i)]) ∧
    (∀ i < 83, decode [0x82#8, BitVec.ofNat 8 (0x9f + i)] = .ok [0x3041 + i] ∧
      encode [0x3041 + i] = .ok [0x82#8, BitVec.ofNat 8 (0x9f + i)]) ∧
    (∀ i < 86, decode [0x83#8, BitVec.ofNat 8 (0x40 + i + i / 63)] = .ok [0x30a1 + i] ∧
      encode [0x30a1 + i] = .ok [0x83#8, BitVec.ofNat 8 (0x40 + i + i / 63)]) ∧
    (∀ i < 24, decode [0x83#8, BitVec.ofNat 8 (0x9f + i)] = .ok [0x391 + i + i / 17] ∧
      encode [0x391 + i + i / 17] = .ok [0x83#8, BitVec.ofNat 8 (0x9f + i)]) :=
  ⟨by decide +kernel, by decide +kernel, by decide +kernel, by decide +kernel, by decide +kernel,
    by decide +kernel, by decide +kernel⟩

end Keramics.Props
