import Verif.Base.Tactics
import Verif.Base.Bits
import Verif.Lemmas.Types

/-!
Property theorems: UUIDs, integers and 16-bit strings (C13–C16).
-/

namespace Keramics.Props
open Keramics Keramics.Spec

/-! ## C13 -/

/-- Pieces of a text between two indexes. -/
theorem drop_split {α} (s : List α) (a b : Nat) (h : a ≤ b) :
    s.drop a = (s.drop a).take (b - a) ++ s.drop b := by
  conv_lhs => rw [← List.take_append_drop (b - a) (s.drop a)]
  rw [List.drop_drop, show a + (b - a) = b by omega]

theorem uuidText_pieces (s : List Byte) :
    s = s.take 8 ++ (s.drop 8).take 1 ++ (s.drop 9).take 4 ++ (s.drop 13).take 1
      ++ (s.drop 14).take 4 ++ (s.drop 18).take 1 ++ (s.drop 19).take 4 ++ (s.drop 23).take 1
      ++ s.drop 24 := by
  simp only [List.append_assoc]
  have h1 := drop_split s 8 9 (by omega)
  have h2 := drop_split s 9 13 (by omega)
  have h3 := drop_split s 13 14 (by omega)
  have h4 := drop_split s 14 18 (by omega)
  have h5 := drop_split s 18 19 (by omega)
  have h6 := drop_split s 19 23 (by omega)
  have h7 := drop_split s 23 24 (by omega)
  simp only [Nat.reduceSub] at h1 h2 h3 h4 h5 h6 h7
  rw [← h7, ← h6, ← h5, ← h4, ← h3, ← h2, ← h1, List.take_append_drop]

theorem isUuidText_ascii {s : List Byte} (h : isUuidText s) : ∀ b ∈ s, b.toNat < 0x80 := by
  intro b hb
  obtain ⟨i, hi, rfl⟩ := List.getElem_of_mem hb
  have := h.2 i (by rw [← h.1]; exact hi)
  have e : s.getD i 0 = s[i] := by simp [List.getD_eq_getElem?_getD, hi]
  rw [e] at this
  split at this
  · rw [this]; decide
  · exact (hex_facts _ this).2.2.2.1

theorem isUuidText_hyphen {s : List Byte} (h : isUuidText s) (i : Nat)
    (hi : i = 8 ∨ i = 13 ∨ i = 18 ∨ i = 23) : (s.drop i).take 1 = [0x2d#8] := by
  have := h.2 i (by omega)
  rw [if_pos hi] at this
  have hl : i < s.length := by rw [h.1]; omega
  have e : s.getD i 0 = s[i] := by simp [List.getD_eq_getElem?_getD, hl]
  rw [List.drop_eq_getElem_cons hl, ← e, this]; rfl

theorem isUuidText_hex {s : List Byte} (h : isUuidText s) (a n : Nat) (hn : a + n ≤ 36)
    (hr : a + n ≤ 8 ∨ (9 ≤ a ∧ a + n ≤ 13) ∨ (14 ≤ a ∧ a + n ≤ 18) ∨ (19 ≤ a ∧ a + n ≤ 23) ∨ 24 ≤ a) :
    ∀ b ∈ (s.drop a).take n, isHexDigit b = true := by
  intro b hb
  obtain ⟨i, hi, rfl⟩ := List.getElem_of_mem hb
  simp only [List.length_take, List.length_drop, h.1] at hi
  have := h.2 (a + i) (by omega)
  rw [if_neg (by omega)] at this
  have e : s.getD (a + i) 0 = s[a + i]'(by rw [h.1]; omega) := by
    simp [List.getD_eq_getElem?_getD, h.1, show a + i < 36 by omega]
  rw [e] at this
  simpa using this

theorem uuid_part {s : List Byte} (h : isUuidText s) (bits a b : Nat) (hab : a < b) (hb : b ≤ 36)
    (hbits : 4 * (b - a) ≤ bits)
    (hr : b ≤ 8 ∨ (9 ≤ a ∧ b ≤ 13) ∨ (14 ≤ a ∧ b ≤ 18) ∨ (19 ≤ a ∧ b ≤ 23) ∨ 24 ≤ a) :
    Uuid.part bits s a b = .ok (hexFold 0 ((s.drop a).take (b - a))) := by
  unfold Uuid.part
  rw [sliceStr_ascii s (isUuidText_ascii h) a b (by omega) (by rw [h.1]; exact hb), R.ok_bind]
  have hlen : ((s.drop a).take (b - a)).length = b - a := by simp [h.1]; omega
  rw [fromStrRadix16_ok bits _ (isUuidText_hex h a (b - a) (by omega) (by omega))
    (by intro e; rw [e] at hlen; simp at hlen; omega) (by omega)]
  rfl

theorem uuid_piece {s : List Byte} (h : isUuidText s) (a n : Nat) (hn : a + n ≤ 36) (hn0 : 0 < n)
    (hr : a + n ≤ 8 ∨ (9 ≤ a ∧ a + n ≤ 13) ∨ (14 ≤ a ∧ a + n ≤ 18) ∨ (19 ≤ a ∧ a + n ≤ 23) ∨ 24 ≤ a) :
    formatHex n (hexFold 0 ((s.drop a).take n)) = ((s.drop a).take n).map lower := by
  have hx := isUuidText_hex h a n hn hr
  have hlen : ((s.drop a).take n).length = n := by simp [h.1]; omega
  have hlt := hexFold_lt _ hx 0 0 (by decide)
  rw [hlen, Nat.zero_add] at hlt
  rw [formatHex_eq hn0 hlt]
  have := hexDigits_hexFold _ hx
  rwa [hlen] at this

/-- The parts of a UUID fit their RFC 4122 field widths (the last part is 48 bits). -/
def uuidFits (u : Uuid.Uuid) : Prop :=
  u.part1 < 2 ^ 32 ∧ u.part2 < 2 ^ 16 ∧ u.part3 < 2 ^ 16 ∧ u.part4 < 2 ^ 16 ∧ u.part5 < 2 ^ 48

theorem uuid_fold_lt {s : List Byte} (h : isUuidText s) (a n : Nat) (hn : a + n ≤ 36)
    (hr : a + n ≤ 8 ∨ (9 ≤ a ∧ a + n ≤ 13) ∨ (14 ≤ a ∧ a + n ≤ 18) ∨ (19 ≤ a ∧ a + n ≤ 23) ∨ 24 ≤ a) :
    hexFold 0 ((s.drop a).take n) < 16 ^ n := by
  have hlt := hexFold_lt _ (isUuidText_hex h a n hn hr) 0 0 (by decide)
  have hlen : ((s.drop a).take n).length = n := by simp [h.1]; omega
  rwa [hlen, Nat.zero_add] at hlt

/-- C13. Every text of the hyphenated hexadecimal form, in either case, is accepted, and the result
prints as that text in lower case. -/
theorem C13_parse_text (s : List Byte) (h : isUuidText s) :
    ∃ u, Uuid.fromString s = .ok u ∧ uuidFits u ∧ Uuid.toString u = s.map lower := by
  have hasc := isUuidText_ascii h
  have hlen := h.1
  have hhead : s.head? ≠ some 0x7b#8 := by
    have h0 := h.2 0 (by omega)
    rw [if_neg (by omega)] at h0
    have := (hex_facts _ h0).2.2.2.2.2.2
    intro e
    apply this
    rw [List.head?_eq_getElem?] at e
    simp [List.getD_eq_getElem?_getD, e]
  refine ⟨⟨hexFold 0 ((s.drop 0).take 8), hexFold 0 ((s.drop 9).take 4),
    hexFold 0 ((s.drop 14).take 4), hexFold 0 ((s.drop 19).take 4),
    hexFold 0 ((s.drop 24).take 12)⟩, ?_,
    ⟨by simpa using uuid_fold_lt h 0 8 (by omega) (by omega),
      by simpa using uuid_fold_lt h 9 4 (by omega) (by omega),
      by simpa using uuid_fold_lt h 14 4 (by omega) (by omega),
      by simpa using uuid_fold_lt h 19 4 (by omega) (by omega),
      by simpa using uuid_fold_lt h 24 12 (by omega) (by omega)⟩, ?_⟩
  · unfold Uuid.fromString
    rw [if_neg (fun hh => hhead hh.1)]
    simp only [R.pure_eq, R.ok_bind, hlen, ne_eq, not_true, if_false]
    have sl : ∀ i, (i = 8 ∨ i = 13 ∨ i = 18 ∨ i = 23) → sliceStr s i (i + 1) = .ok [0x2d#8] := by
      intro i hi
      rw [sliceStr_ascii s hasc i (i + 1) (by omega) (by omega),
        show i + 1 - i = 1 by omega, isUuidText_hyphen h i hi]
    have h8 := sl 8 (by omega)
    have h13 := sl 13 (by omega)
    have h18 := sl 18 (by omega)
    have h23 := sl 23 (by omega)
    simp only [Nat.reduceAdd] at h8 h13 h18 h23
    rw [h8, h13, h18, h23, uuid_part h 32 0 8 (by omega) (by omega) (by omega) (by omega),
      uuid_part h 16 9 13 (by omega) (by omega) (by omega) (by omega),
      uuid_part h 16 14 18 (by omega) (by omega) (by omega) (by omega),
      uuid_part h 16 19 23 (by omega) (by omega) (by omega) (by omega),
      uuid_part h 64 24 36 (by omega) (by omega) (by omega) (by omega)]
    simp
  · unfold Uuid.toString
    simp only
    rw [uuid_piece h 0 8 (by omega) (by omega) (by omega),
      uuid_piece h 9 4 (by omega) (by omega) (by omega),
      uuid_piece h 14 4 (by omega) (by omega) (by omega),
      uuid_piece h 19 4 (by omega) (by omega) (by omega),
      uuid_piece h 24 12 (by omega) (by omega) (by omega)]
    conv_rhs => rw [uuidText_pieces s]
    rw [isUuidText_hyphen h 8 (by omega), isUuidText_hyphen h 13 (by omega),
      isUuidText_hyphen h 18 (by omega), isUuidText_hyphen h 23 (by omega)]
    have : List.take 12 (List.drop 24 s) = List.drop 24 s := by
      rw [List.take_of_length_le (by simp [hlen])]
    simp only [List.map_append, List.drop_zero, this]
    rfl

theorem uuid_toString_isUuidText (u : Uuid.Uuid) (h : uuidFits u) : isUuidText (Uuid.toString u) := by
  obtain ⟨h1, h2, h3, h4, h5⟩ := h
  unfold Uuid.toString
  rw [formatHex_eq (by omega) (by simpa using h1), formatHex_eq (by omega) (by simpa using h2),
    formatHex_eq (by omega) (by simpa using h3), formatHex_eq (by omega) (by simpa using h4),
    formatHex_eq (by omega) (by simpa using h5)]
  have hx := fun n v => fun b hb => (hexDigits_hex n v b hb).1
  have l := hexDigits_length
  have get : ∀ n v i, i < n → isHexDigit ((hexDigits n v)[i]?.getD 0) = true := by
    intro n v i hi
    have hi' : i < (hexDigits n v).length := by simpa using hi
    rw [List.getElem?_eq_getElem hi', Option.getD_some]
    exact hx n v _ (List.getElem_mem hi')
  refine ⟨by simp, ?_⟩
  intro i hi
  simp only [List.append_assoc, List.getD_eq_getElem?_getD, List.getElem?_append, l,
    List.length_singleton]
  by_cases c1 : i < 8
  · rw [if_neg (by omega)]; simp only [c1, if_true]; exact get 8 _ i c1
  by_cases c2 : i = 8
  · subst c2; simp
  by_cases c3 : i < 13
  · rw [if_neg (by omega)]
    simp only [c1, show ¬ i - 8 < 1 by omega, show i - 8 - 1 < 4 by omega, if_true, if_false]
    exact get 4 _ _ (by omega)
  by_cases c4 : i = 13
  · subst c4; simp
  by_cases c5 : i < 18
  · rw [if_neg (by omega)]
    simp only [c1, show ¬ i - 8 < 1 by omega, show ¬ i - 8 - 1 < 4 by omega,
      show ¬ i - 8 - 1 - 4 < 1 by omega, show i - 8 - 1 - 4 - 1 < 4 by omega, if_true, if_false]
    exact get 4 _ _ (by omega)
  by_cases c6 : i = 18
  · subst c6; simp
  by_cases c7 : i < 23
  · rw [if_neg (by omega)]
    simp only [c1, show ¬ i - 8 < 1 by omega, show ¬ i - 8 - 1 < 4 by omega,
      show ¬ i - 8 - 1 - 4 < 1 by omega, show ¬ i - 8 - 1 - 4 - 1 < 4 by omega,
      show ¬ i - 8 - 1 - 4 - 1 - 4 < 1 by omega, show i - 8 - 1 - 4 - 1 - 4 - 1 < 4 by omega,
      if_true, if_false]
    exact get 4 _ _ (by omega)
  by_cases c8 : i = 23
  · subst c8; simp
  rw [if_neg (by omega)]
  simp only [c1, show ¬ i - 8 < 1 by omega, show ¬ i - 8 - 1 < 4 by omega,
      show ¬ i - 8 - 1 - 4 < 1 by omega, show ¬ i - 8 - 1 - 4 - 1 < 4 by omega,
      show ¬ i - 8 - 1 - 4 - 1 - 4 < 1 by omega, show ¬ i - 8 - 1 - 4 - 1 - 4 - 1 < 4 by omega,
      show ¬ i - 8 - 1 - 4 - 1 - 4 - 1 - 4 < 1 by omega, if_false]
  exact get 12 _ _ (by omega)

/-- Printing is injective on UUIDs whose parts fit. -/
theorem uuid_toString_inj (u v : Uuid.Uuid) (hu : uuidFits u) (hv : uuidFits v)
    (h : Uuid.toString u = Uuid.toString v) : u = v := by
  obtain ⟨u1, u2, u3, u4, u5⟩ := hu
  obtain ⟨v1, v2, v3, v4, v5⟩ := hv
  unfold Uuid.toString at h
  rw [formatHex_eq (by omega) (by simpa using u1), formatHex_eq (by omega) (by simpa using u2),
    formatHex_eq (by omega) (by simpa using u3), formatHex_eq (by omega) (by simpa using u4),
    formatHex_eq (by omega) (by simpa using u5), formatHex_eq (by omega) (by simpa using v1),
    formatHex_eq (by omega) (by simpa using v2), formatHex_eq (by omega) (by simpa using v3),
    formatHex_eq (by omega) (by simpa using v4), formatHex_eq (by omega) (by simpa using v5)] at h
  have inj : ∀ n a b, a < 16 ^ n → b < 16 ^ n → hexDigits n a = hexDigits n b → a = b := by
    intro n a b ha hb e
    have := congrArg (hexFold 0) e
    rwa [hexFold_hexDigits, hexFold_hexDigits, Nat.mod_eq_of_lt ha, Nat.mod_eq_of_lt hb,
      Nat.zero_mul, Nat.zero_add, Nat.zero_add] at this
  simp only [List.append_assoc] at h
  have hl := fun n a b => (hexDigits_length n a).trans (hexDigits_length n b).symm
  obtain ⟨e1, h⟩ := List.append_inj h (hl _ _ _)
  obtain ⟨-, h⟩ := List.append_inj h rfl
  obtain ⟨e2, h⟩ := List.append_inj h (hl _ _ _)
  obtain ⟨-, h⟩ := List.append_inj h rfl
  obtain ⟨e3, h⟩ := List.append_inj h (hl _ _ _)
  obtain ⟨-, h⟩ := List.append_inj h rfl
  obtain ⟨e4, h⟩ := List.append_inj h (hl _ _ _)
  obtain ⟨-, e5⟩ := List.append_inj h rfl
  cases u; cases v
  simp only at *
  rw [inj 8 _ _ (by simpa using u1) (by simpa using v1) e1,
    inj 4 _ _ (by simpa using u2) (by simpa using v2) e2,
    inj 4 _ _ (by simpa using u3) (by simpa using v3) e3,
    inj 4 _ _ (by simpa using u4) (by simpa using v4) e4,
    inj 12 _ _ (by simpa using u5) (by simpa using v5) e5]

/-- C13. Parsing the text of a UUID gives the UUID back. -/
theorem C13_round_trip (u : Uuid.Uuid) (h : uuidFits u) :
    Uuid.fromString (Uuid.toString u) = .ok u := by
  have ht := uuid_toString_isUuidText u h
  obtain ⟨v, hv, hfit, he⟩ := C13_parse_text _ ht
  have hlow : (Uuid.toString u).map lower = Uuid.toString u := by
    conv_rhs => rw [← List.map_id (Uuid.toString u)]
    apply List.map_congr_left
    intro b hb
    rw [id_eq]
    unfold Uuid.toString at hb
    simp only [List.mem_append, List.mem_singleton] at hb
    have hf : ∀ w v, ∀ b ∈ formatHex w v, lower b = b := fun w v b hb =>
      (hexDigits_hex _ _ b hb).2
    have hy : lower 0x2d#8 = 0x2d#8 := by decide
    rcases hb with ((((((((hb | hb) | hb) | hb) | hb) | hb) | hb) | hb) | hb)
    all_goals first | exact hf _ _ b hb | (rw [hb]; exact hy)
  rw [hv, uuid_toString_inj v u hfit h (by rw [he, hlow])]

/-- C13. The big-endian constructor prints the 16 octets in order. -/
theorem C13_be_bytes (b : List Byte) (hb : b.length = 16) :
    ∃ u, Uuid.fromBeBytes b = .ok u ∧ uuidFits u ∧ Uuid.toString u = uuidText b := by
  have hsl : ∀ i n, i + n ≤ 16 → R.slice b i (i + n) = .ok ((b.drop i).take n) := by
    intro i n h
    rw [R.slice_ok (by omega) (by omega), show i + n - i = n by omega]
  have hlt : ∀ i n, i + n ≤ 16 → beNat ((b.drop i).take n) < 16 ^ (2 * n) := by
    intro i n h
    have := beNat_lt ((b.drop i).take n)
    have hl : ((b.drop i).take n).length = n := by simp; omega
    rw [hl] at this
    rwa [Nat.pow_mul]
  have hdig : ∀ i n, i + n ≤ 16 → 0 < n →
      formatHex (2 * n) (beNat ((b.drop i).take n)) = ((b.drop i).take n).flatMap hexByte := by
    intro i n h hn
    have hl : ((b.drop i).take n).length = n := by simp; omega
    rw [formatHex_eq (by omega) (hlt i n h)]
    have := hexDigits_beNat ((b.drop i).take n)
    rwa [hl] at this
  have h5 : (beNat ((b.drop 10).take 2) <<< 32) ||| beNat ((b.drop 12).take 4)
      = beNat ((b.drop 10).take 6) := by
    rw [Nat.shiftLeft_eq, Nat.mul_comm, ← Nat.two_pow_add_eq_or_of_lt (by simpa using hlt 12 4 (by omega))]
    have : (b.drop 10).take 6 = (b.drop 10).take 2 ++ (b.drop 12).take 4 := by
      rw [show 6 = 2 + 4 from rfl, List.take_add, List.drop_drop]
    rw [this]
    unfold beNat
    rw [List.reverse_append, leNat_append]
    simp only [List.length_reverse, List.length_take, List.length_drop, hb]
    simp; omega
  refine ⟨⟨beNat ((b.drop 0).take 4), beNat ((b.drop 4).take 2), beNat ((b.drop 6).take 2),
    beNat ((b.drop 8).take 2), beNat ((b.drop 10).take 6)⟩, ?_, ?_, ?_⟩
  · unfold Uuid.fromBeBytes u16be u32be
    rw [hsl 10 2 (by omega), hsl 12 4 (by omega), hsl 0 4 (by omega), hsl 4 2 (by omega),
      hsl 6 2 (by omega), hsl 8 2 (by omega)]
    simp only [R.ok_bind, R.pure_eq, h5]
  · exact ⟨by simpa using hlt 0 4 (by omega), by simpa using hlt 4 2 (by omega),
      by simpa using hlt 6 2 (by omega), by simpa using hlt 8 2 (by omega),
      by simpa using hlt 10 6 (by omega)⟩
  · unfold Uuid.toString uuidText
    simp only
    rw [hdig 0 4 (by omega) (by omega), hdig 4 2 (by omega) (by omega),
      hdig 6 2 (by omega) (by omega), hdig 8 2 (by omega) (by omega),
      hdig 10 6 (by omega) (by omega)]
    rw [List.take_of_length_le (l := b.drop 10) (by simp [hb])]
    simp

/-- C13. The little-endian constructor reads the mixed-endian storage of the same octets. -/
theorem C13_le_bytes (b : List Byte) (hb : b.length = 16) :
    Uuid.fromLeBytes (guidBytes b) = Uuid.fromBeBytes b := by
  match b, hb with
  | [b0, b1, b2, b3, b4, b5, b6, b7, b8, b9, b10, b11, b12, b13, b14, b15], _ =>
    simp [Uuid.fromLeBytes, Uuid.fromBeBytes, guidBytes, u16be, u32be, u16le, u32le, R.slice, beNat]

/-- C13. A UUID is nil if all 16 octets are 0, and max if all are 255. -/
theorem C13_nil_max (b : List Byte) (hb : b.length = 16) :
    ∃ u, Uuid.fromBeBytes b = .ok u ∧ (Uuid.isNil u = true ↔ b = List.replicate 16 0#8) ∧ (Uuid.isMax u = true ↔ b = List.replicate 16 0xff#8) := by
  match b, hb with
  | [b0, b1, b2, b3, b4, b5, b6, b7, b8, b9, b10, b11, b12, b13, b14, b15], _ =>
    have e : ∀ (x : Byte) (n : Nat), n < 256 → (x = BitVec.ofNat 8 n ↔ x.toNat = n) := fun x n hn => by
      rw [← BitVec.toNat_inj, BitVec.toNat_ofNat, Nat.mod_eq_of_lt hn]
    refine ⟨_, by simp only [Uuid.fromBeBytes, u16be, u32be, R.slice, List.length_cons, List.length_nil]; rfl, ?_, ?_⟩
    · simp only [Uuid.isNil, Bool.and_eq_true, beq_iff_eq, List.replicate, List.cons.injEq, and_true, e _ 0 (by omega)]
      simp only [List.drop, List.take, beNat, List.reverse_cons, List.reverse_nil, List.nil_append, List.cons_append, leNat]
      rw [shl_or (by omega)]
      omega
    · simp only [Uuid.isMax, Bool.and_eq_true, beq_iff_eq, List.replicate, List.cons.injEq, and_true, e _ 255 (by omega)]
      simp only [List.drop, List.take, beNat, List.reverse_cons, List.reverse_nil, List.nil_append, List.cons_append, leNat]
      rw [shl_or (by omega)]
      omega

/-- Text as bytes. -/
def txt (s : String) : List Byte := s.toList.map fun c => BitVec.ofNat 8 c.toNat

/-- C13 is false of the code as stated: a plus sign is accepted in place of the first digit of a
field, and surrounding braces are accepted. -/
theorem C13_violated_accepts :
    (¬ isUuidText (txt "+1234567-0000-0000-0000-000000000000") ∧
      Uuid.fromString (txt "+1234567-0000-0000-0000-000000000000")
        = .ok ⟨0x1234567, 0, 0, 0, 0⟩) ∧
    (¬ isUuidText (txt "{01234567-0000-0000-0000-000000000000}") ∧
      Uuid.fromString (txt "{01234567-0000-0000-0000-000000000000}")
        = .ok ⟨0x1234567, 0, 0, 0, 0⟩) := by
  refine ⟨⟨?_, by decide +kernel⟩, ⟨?_, by decide +kernel⟩⟩
  · intro h
    have := h.2 0 (by omega)
    revert this; decide +kernel
  · intro h
    have := h.1
    revert this; decide +kernel

/-- C13 is false of the code as stated: a 36 byte text whose byte 8 is inside a multi-byte character
(here `é`, bytes 0xc3 0xa9, at bytes 7 and 8) panics instead of being rejected. -/
theorem C13_violated_panics : ∃ s : List Byte, s.length = 36 ∧ Uuid.fromString s = .panic :=
  ⟨txt "0123456" ++ [0xc3, 0xa9] ++ txt "0000-0000-0000-0000-0000000", by decide +kernel,
    by decide +kernel⟩

/-- C13, rejection: an ASCII text without a plus sign that does not start with a brace is accepted
only if it has the hyphenated hexadecimal form, and is rejected with an error (never a panic)
otherwise. Missing: texts with `+` or braces and non-ASCII texts, see the violations above. -/
theorem C13_rejects_partial (s : List Byte) (hasc : ∀ b ∈ s, b.toNat < 0x80)
    (hplus : 0x2b#8 ∉ s) (hbrace : s.head? ≠ some 0x7b#8) :
    (isUuidText s ∧ ∃ u, Uuid.fromString s = .ok u) ∨ (¬ isUuidText s ∧ Uuid.fromString s = .err) := by
  by_cases ht : isUuidText s
  · obtain ⟨u, hu, _, _⟩ := C13_parse_text s ht
    exact .inl ⟨ht, u, hu⟩
  refine .inr ⟨ht, ?_⟩
  unfold Uuid.fromString
  rw [if_neg (fun hh => hbrace hh.1)]
  simp only [R.pure_eq, R.ok_bind]
  by_cases hlen : s.length = 36
  swap
  · simp [hlen]
  rw [if_neg (by simpa using hlen)]
  have sl : ∀ a b, a ≤ b → b ≤ 36 → sliceStr s a b = .ok ((s.drop a).take (b - a)) :=
    fun a b hab hb => sliceStr_ascii s hasc a b hab (by omega)
  simp only [sl 8 9 (by omega) (by omega), sl 13 14 (by omega) (by omega),
    sl 18 19 (by omega) (by omega), sl 23 24 (by omega) (by omega), R.ok_bind, Nat.reduceSub]
  by_cases c1 : (s.drop 8).take 1 = [0x2d#8]
  swap
  · simp [c1]
  by_cases c2 : (s.drop 13).take 1 = [0x2d#8]
  swap
  · simp [c1, c2]
  by_cases c3 : (s.drop 18).take 1 = [0x2d#8]
  swap
  · simp [c1, c2, c3]
  by_cases c4 : (s.drop 23).take 1 = [0x2d#8]
  swap
  · simp [c1, c2, c3, c4]
  simp only [c1, c2, c3, c4, ne_eq, not_true, if_false]
  have hp : ∀ bits a b, a ≤ b → b ≤ 36 →
      Uuid.part bits s a b = .err ∨ ((∃ v, Uuid.part bits s a b = .ok v) ∧
        ∀ x ∈ (s.drop a).take (b - a), isHexDigit x = true) := by
    intro bits a b hab hb
    unfold Uuid.part
    rw [sl a b hab hb, R.ok_bind]
    cases hf : fromStrRadix16 bits ((s.drop a).take (b - a)) with
    | none => exact .inl rfl
    | some v =>
      refine .inr ⟨⟨v, rfl⟩, fromStrRadix16_some bits _ v ?_ hf⟩
      exact fun hm => hplus (List.mem_of_mem_drop (List.mem_of_mem_take hm))
  rcases hp 32 0 8 (by omega) (by omega) with e | ⟨⟨_, e⟩, x1⟩
  · rw [e]; rfl
  rw [e, R.ok_bind]
  rcases hp 16 9 13 (by omega) (by omega) with e | ⟨⟨_, e⟩, x2⟩
  · rw [e]; rfl
  rw [e, R.ok_bind]
  rcases hp 16 14 18 (by omega) (by omega) with e | ⟨⟨_, e⟩, x3⟩
  · rw [e]; rfl
  rw [e, R.ok_bind]
  rcases hp 16 19 23 (by omega) (by omega) with e | ⟨⟨_, e⟩, x4⟩
  · rw [e]; rfl
  rw [e, R.ok_bind]
  rcases hp 64 24 36 (by omega) (by omega) with e | ⟨⟨_, e⟩, x5⟩
  · rw [e]; rfl
  exfalso
  apply ht
  refine ⟨hlen, ?_⟩
  intro i hi
  have hget : ∀ a n (hm : a ≤ i) (hm' : i < a + n), a + n ≤ 36 → s.getD i 0 ∈ (s.drop a).take n := by
    intro a n h1 h2 h3
    have hi' : i < s.length := by omega
    have : s.getD i 0 = s[i] := by simp [List.getD_eq_getElem?_getD, hi']
    rw [this]
    rw [List.mem_take_iff_getElem]
    refine ⟨i - a, by simp; omega, ?_⟩
    simp only [List.getElem_drop]
    congr 1; omega
  have hy : ∀ j, j < 36 → (s.drop j).take 1 = [0x2d#8] → s.getD j 0 = 0x2d#8 := by
    intro j hj h
    have hj' : j < s.length := by omega
    rw [List.drop_eq_getElem_cons hj'] at h
    simp only [List.take_succ_cons, List.take_zero, List.cons.injEq, and_true] at h
    simp [List.getD_eq_getElem?_getD, hj', h]
  split
  · rename_i h
    rcases h with rfl | rfl | rfl | rfl
    · exact hy 8 (by omega) c1
    · exact hy 13 (by omega) c2
    · exact hy 18 (by omega) c3
    · exact hy 23 (by omega) c4
  · rename_i h
    by_cases d1 : i < 8
    · exact x1 _ (hget 0 8 (by omega) (by omega) (by omega))
    by_cases d2 : i < 13
    · exact x2 _ (hget 9 4 (by omega) (by omega) (by omega))
    by_cases d3 : i < 18
    · exact x3 _ (hget 14 4 (by omega) (by omega) (by omega))
    by_cases d4 : i < 23
    · exact x4 _ (hget 19 4 (by omega) (by omega) (by omega))
    · exact x5 _ (hget 24 12 (by omega) (by omega) (by omega))

example : uuidFits ⟨0xdeadbeef, 0x1234, 0x5678, 0x9abc, 0xdef012345678⟩ := by
  unfold uuidFits; decide
example : Uuid.toString ⟨0xdeadbeef, 0x1234, 0x5678, 0x9abc, 0xdef012345678⟩
    = txt "deadbeef-1234-5678-9abc-def012345678" := by decide +kernel

/-! ## C14 -/

/-- The `n` bytes at `off`. -/
def bytesAt (data : List Byte) (off n : Nat) : List Byte := (data.drop off).take n

/-- C14. Every decoder reads the value of the bytes at the offset, and panics exactly when they are
not all inside the buffer. -/
theorem C14_unsigned (data : List Byte) (off : Nat) :
    (u16le data off = if off + 2 ≤ data.length then .ok (leValue (bytesAt data off 2)) else .panic) ∧
    (u32le data off = if off + 4 ≤ data.length then .ok (leValue (bytesAt data off 4)) else .panic) ∧
    (u64le data off = if off + 8 ≤ data.length then .ok (leValue (bytesAt data off 8)) else .panic) ∧
    (u16be data off = if off + 2 ≤ data.length then .ok (beValue (bytesAt data off 2)) else .panic) ∧
    (u32be data off = if off + 4 ≤ data.length then .ok (beValue (bytesAt data off 4)) else .panic) ∧
    (u64be data off = if off + 8 ≤ data.length then .ok (beValue (bytesAt data off 8)) else .panic)
    := by
  have hs : ∀ n, R.slice data off (off + n)
      = if off + n ≤ data.length then .ok (bytesAt data off n) else .panic := by
    intro n
    unfold R.slice bytesAt
    by_cases h : off + n ≤ data.length
    · simp [h, show off + n - off = n by omega]
    · simp [h]
  refine ⟨?_, ?_, ?_, ?_, ?_, ?_⟩ <;>
    simp only [u16le, u32le, u64le, u16be, u32be, u64be, hs] <;> split <;>
    simp [leNat_eq_leValue, beNat_eq_beValue]

/-- C14. The signed decoders read the two's complement value of the bytes at the offset. -/
theorem C14_signed (data : List Byte) (off : Nat) :
    (off + 2 ≤ data.length → ∃ v, i16le data off = .ok v ∧
      IsTwosComplement 16 (leValue (bytesAt data off 2)) v) ∧
    (off + 4 ≤ data.length → ∃ v, i32le data off = .ok v ∧
      IsTwosComplement 32 (leValue (bytesAt data off 4)) v) ∧
    (off + 8 ≤ data.length → ∃ v, i64le data off = .ok v ∧
      IsTwosComplement 64 (leValue (bytesAt data off 8)) v) ∧
    (off + 2 ≤ data.length → ∃ v, i16be data off = .ok v ∧
      IsTwosComplement 16 (beValue (bytesAt data off 2)) v) ∧
    (off + 4 ≤ data.length → ∃ v, i32be data off = .ok v ∧
      IsTwosComplement 32 (beValue (bytesAt data off 4)) v) ∧
    (off + 8 ≤ data.length → ∃ v, i64be data off = .ok v ∧
      IsTwosComplement 64 (beValue (bytesAt data off 8)) v) := by
  have hs : ∀ n, off + n ≤ data.length → R.slice data off (off + n) = .ok (bytesAt data off n) := by
    intro n h
    rw [R.slice_ok (by omega) h, show off + n - off = n by omega]; rfl
  have hl : ∀ n, off + n ≤ data.length → leValue (bytesAt data off n) < 256 ^ n := by
    intro n h
    have := leNat_lt (bytesAt data off n)
    rw [leNat_eq_leValue] at this
    rwa [show (bytesAt data off n).length = n by simp [bytesAt]; omega] at this
  have hb : ∀ n, off + n ≤ data.length → beValue (bytesAt data off n) < 256 ^ n := by
    intro n h
    have := beNat_lt (bytesAt data off n)
    rw [beNat_eq_beValue] at this
    rwa [show (bytesAt data off n).length = n by simp [bytesAt]; omega] at this
  refine ⟨?_, ?_, ?_, ?_, ?_, ?_⟩ <;> intro h <;>
    simp only [i16le, i32le, i64le, i16be, i32be, i64be, hs _ h, R.ok_bind, R.pure_eq,
      leNat_eq_leValue, beNat_eq_beValue, R.ok.injEq, exists_eq_left'] <;>
    apply toSigned_spec _ _ (by decide)
  · simpa using hl _ h
  · simpa using hl _ h
  · simpa using hl _ h
  · simpa using hb _ h
  · simpa using hb _ h
  · simpa using hb _ h

example : i16le [0x00, 0xfe, 0xff] 1 = .ok (-2) ∧ u32be [1, 2, 3, 4] 0 = .ok 0x01020304 := by
  decide +kernel

/-! ## C15 -/

theorem elements_eq (load : List Byte → Nat → R Nat) (units : List Byte → List Nat)
    (hnil : units [] = [])
    (hunits : ∀ a b rest, ∃ v, units (a :: b :: rest) = v :: units rest ∧
      ∀ pre, load (pre ++ a :: b :: rest) pre.length = .ok v)
    (pre data : List Byte) (h : data.length % 2 = 0) (hp : pre.length % 2 = 0) :
    Ucs2.elements load (pre ++ data)
      ((List.range (data.length / 2)).map fun i => pre.length + 2 * i)
      = .ok ((units data).takeWhile (· ≠ 0)) := by
  match data with
  | [] => simp [Ucs2.elements, hnil]
  | [_] => simp at h
  | a :: b :: rest =>
    obtain ⟨v, hv, hload⟩ := hunits a b rest
    simp only [List.length_cons] at h
    have hr : rest.length % 2 = 0 := by omega
    have hlen : (a :: b :: rest).length / 2 = rest.length / 2 + 1 := by
      simp only [List.length_cons]; omega
    rw [hlen, List.range_succ_eq_map, List.map_cons, List.map_map]
    unfold Ucs2.elements
    simp only [Nat.mul_zero, Nat.add_zero]
    rw [hload, R.ok_bind, hv]
    by_cases h0 : v = 0
    · simp [h0]
    · simp only [h0, if_false]
      have ih := elements_eq load units hnil hunits (pre ++ [a, b]) rest hr (by simp; omega)
      simp only [List.length_append, List.length_cons, List.length_nil, List.append_assoc,
        List.cons_append, List.nil_append] at ih
      have e : (List.range (rest.length / 2)).map ((fun i => pre.length + 2 * i) ∘ Nat.succ)
          = (List.range (rest.length / 2)).map fun i => pre.length + (0 + 1 + 1) + 2 * i := by
        apply List.map_congr_left
        intro i _
        simp only [Function.comp_apply, Nat.succ_eq_add_one]; omega
      rw [e, ih]
      simp [h0]
termination_by data.length

theorem slice2 (pre rest : List Byte) (a b : Byte) :
    R.slice (pre ++ a :: b :: rest) pre.length (pre.length + 2) = .ok [a, b] := by
  rw [R.slice_ok (by omega) (by simp), show pre.length + 2 - pre.length = 2 by omega]
  simp

/-- C15. Decoding an even-length buffer, little-endian (`Ucs2String::from_le_bytes` and
`Utf16String::from_le_bytes`): exactly the units before the first zero unit. -/
theorem C15_decode_le (data : List Byte) (h : data.length % 2 = 0) :
    Ucs2.fromLeBytes data = .ok ((unitsLe data).takeWhile (· ≠ 0)) := by
  have := elements_eq u16le unitsLe rfl (fun a b rest => ⟨a.toNat + 256 * b.toNat, rfl, fun pre => by
    simp [u16le, slice2, leNat]⟩) [] data h rfl
  unfold Ucs2.fromLeBytes Ucs2.offsets
  rw [show (data.length + 1) / 2 = data.length / 2 by omega]
  simpa using this

/-- C15. As `C15_decode_le`, big-endian. -/
theorem C15_decode_be (data : List Byte) (h : data.length % 2 = 0) :
    Ucs2.fromBeBytes data = .ok ((unitsBe data).takeWhile (· ≠ 0)) := by
  have := elements_eq u16be unitsBe rfl (fun a b rest => ⟨b.toNat + 256 * a.toNat, rfl, fun pre => by
    simp [u16be, slice2, beNat, leNat]⟩) [] data h rfl
  unfold Ucs2.fromBeBytes Ucs2.offsets
  rw [show (data.length + 1) / 2 = data.length / 2 by omega]
  simpa using this

/-- C15. A byte string: exactly the bytes before the first zero byte. -/
theorem C15_byte_string (data : List Byte) : ByteString.elements data = data.takeWhile (· ≠ 0) := by
  unfold ByteString.elements
  induction data with
  | nil => rfl
  | cons b data ih =>
    rw [List.findIdx?_cons, List.takeWhile_cons]
    by_cases hb : b = 0
    · simp [hb]
    · rw [if_neg (by simpa using hb), if_pos (by simpa using hb), ← ih]
      cases h : data.findIdx? (· == 0) <;> simp

/-- C15. Encoding zero-free units and decoding returns them, with or without a terminator and
whatever follows it. -/
theorem C15_round_trip (us : List Nat) (hu : ∀ u ∈ us, 0 < u ∧ u < 2 ^ 16) (tail : List Byte)
    (ht : tail.length % 2 = 0) :
    Ucs2.fromLeBytes (us.flatMap (leBytes 2)) = .ok us ∧
    Ucs2.fromBeBytes (us.flatMap (beBytes 2)) = .ok us ∧
    Ucs2.fromLeBytes (us.flatMap (leBytes 2) ++ [0, 0] ++ tail) = .ok us ∧
    Ucs2.fromBeBytes (us.flatMap (beBytes 2) ++ [0, 0] ++ tail) = .ok us := by
  have hlen : ∀ (f : Nat → List Byte), (∀ u, (f u).length = 2) →
      (us.flatMap f).length = 2 * us.length := by
    intro f hf
    rw [List.length_flatMap]
    simp only [hf]
    induction us with
    | nil => rfl
    | cons u us ih => simp only [List.map_cons, List.sum_cons, List.length_cons,
        ih (fun x hx => hu x (List.mem_cons_of_mem _ hx))]; omega
  have hle := hlen (leBytes 2) (fun u => by simp)
  have hbe := hlen (beBytes 2) (fun u => by simp)
  have tw : ∀ rest, (us ++ 0 :: rest).takeWhile (· ≠ 0) = us := by
    intro rest
    rw [List.takeWhile_append_of_pos (by intro u hm; simp; have := hu u hm; omega)]
    simp
  have tw' : us.takeWhile (· ≠ 0) = us := by
    have := List.takeWhile_append_of_pos (p := (· ≠ 0)) (l₁ := us) (l₂ := [])
      (by intro u hm; simp; have := hu u hm; omega)
    simpa using this
  have ule : ∀ rest, unitsLe (us.flatMap (leBytes 2) ++ rest) = us ++ unitsLe rest := by
    clear tw tw' hlen hle hbe
    intro rest
    induction us with
    | nil => rfl
    | cons u us ih =>
      have hu0 := hu u List.mem_cons_self
      rw [List.flatMap_cons, List.append_assoc]
      rw [show leBytes 2 u = [BitVec.ofNat 8 u, BitVec.ofNat 8 (u / 256)] from rfl]
      simp only [List.cons_append, List.nil_append, unitsLe, BitVec.toNat_ofNat]
      rw [ih (fun x hx => hu x (List.mem_cons_of_mem _ hx))]
      congr 1; omega
  have ube : ∀ rest, unitsBe (us.flatMap (beBytes 2) ++ rest) = us ++ unitsBe rest := by
    clear tw tw' hlen hle hbe ule
    intro rest
    induction us with
    | nil => rfl
    | cons u us ih =>
      have hu0 := hu u List.mem_cons_self
      rw [List.flatMap_cons, List.append_assoc]
      rw [show beBytes 2 u = [BitVec.ofNat 8 (u / 256), BitVec.ofNat 8 u] from rfl]
      simp only [List.cons_append, List.nil_append, unitsBe, BitVec.toNat_ofNat]
      rw [ih (fun x hx => hu x (List.mem_cons_of_mem _ hx))]
      congr 1; omega
  refine ⟨?_, ?_, ?_, ?_⟩
  · rw [C15_decode_le _ (by omega)]
    have := ule []
    simp only [List.append_nil, unitsLe] at this
    rw [this, tw']
  · rw [C15_decode_be _ (by omega)]
    have := ube []
    simp only [List.append_nil, unitsBe] at this
    rw [this, tw']
  · rw [C15_decode_le _ (by simp only [List.length_append, hle, List.length_cons, List.length_nil]; omega),
      List.append_assoc, ule]
    simp only [List.cons_append, List.nil_append, unitsLe]
    exact congrArg R.ok (tw _)
  · rw [C15_decode_be _ (by simp only [List.length_append, hbe, List.length_cons, List.length_nil]; omega),
      List.append_assoc, ube]
    simp only [List.cons_append, List.nil_append, unitsBe]
    exact congrArg R.ok (tw _)

example : unitsLe [0x41, 0, 0x42, 1, 0, 0, 0x43, 0] = [0x41, 0x142, 0, 0x43] := by decide

/-! ## C16 -/

/-- The comparison used for case-insensitive lookups: both strings folded, then compared. -/
def compareFolded (m : Nat → Option Nat) (a b : List Nat) : Ordering :=
  Ucs2.compare (Ucs2.caseFold m a) (Ucs2.caseFold m b)

/-- Lexicographic order of element lists, a proper prefix being smaller. -/
inductive LexLt : List Nat → List Nat → Prop
  | nil {b bs} : LexLt [] (b :: bs)
  | head {a b as bs} : a < b → LexLt (a :: as) (b :: bs)
  | tail {a as bs} : LexLt as bs → LexLt (a :: as) (a :: bs)

theorem compare_spec (a b : List Nat) :
    (Ucs2.compare a b = .lt ↔ LexLt a b) ∧ (Ucs2.compare a b = .eq ↔ a = b)
      ∧ (Ucs2.compare a b = .gt ↔ LexLt b a) := by
  induction a generalizing b with
  | nil =>
    cases b with
    | nil => refine ⟨?_, by simp [Ucs2.compare], ?_⟩ <;> simp [Ucs2.compare] <;> rintro ⟨⟩
    | cons b bs =>
      refine ⟨by simp [Ucs2.compare, LexLt.nil], by simp [Ucs2.compare], ?_⟩
      simp [Ucs2.compare]; rintro ⟨⟩
  | cons a as ih =>
    cases b with
    | nil =>
      refine ⟨?_, by simp [Ucs2.compare], by simp [Ucs2.compare, LexLt.nil]⟩
      simp [Ucs2.compare]; rintro ⟨⟩
    | cons b bs =>
      unfold Ucs2.compare
      rcases Nat.lt_trichotomy a b with h | h | h
      · simp only [h, if_true]
        refine ⟨by simp [LexLt.head h], by simp; intro e; omega, ?_⟩
        simp only [reduceCtorEq, false_iff]
        intro hl
        cases hl with
        | head h' => omega
        | tail _ => omega
      · subst h
        simp only [Nat.lt_irrefl, if_false, gt_iff_lt]
        obtain ⟨i1, i2, i3⟩ := ih bs
        refine ⟨?_, by rw [i2]; simp, ?_⟩
        · rw [i1]; exact ⟨.tail, fun h => by cases h with | head h => omega | tail h => exact h⟩
        · rw [i3]; exact ⟨.tail, fun h => by cases h with | head h => omega | tail h => exact h⟩
      · simp only [show ¬ a < b by omega, gt_iff_lt, h, if_true, if_false]
        refine ⟨?_, by simp; intro e; omega, by simp [LexLt.head h]⟩
        simp only [reduceCtorEq, false_iff]
        intro hl
        cases hl with
        | head h' => omega
        | tail _ => omega

theorem lexLt_trans {a b c : List Nat} (h1 : LexLt a b) (h2 : LexLt b c) : LexLt a c := by
  induction h1 generalizing c with
  | nil => cases h2 <;> exact .nil
  | head h =>
    cases h2 with
    | head h' => exact .head (by omega)
    | tail _ => exact .head h
  | tail _ ih =>
    cases h2 with
    | head h' => exact .head h'
    | tail h' => exact .tail (ih h')

/-- C16. Case-insensitive comparison under any mapping is the lexicographic order of the folded
strings: equal exactly when the folded strings are equal, reflexive, antisymmetric (the swapped
comparison is the opposite), transitive and total. -/
theorem C16_order (m : Nat → Option Nat) (a b c : List Nat) :
    (compareFolded m a b = .eq ↔ Ucs2.caseFold m a = Ucs2.caseFold m b) ∧
    (compareFolded m a b = .lt ↔ LexLt (Ucs2.caseFold m a) (Ucs2.caseFold m b)) ∧
    compareFolded m a a = .eq ∧
    compareFolded m b a = (compareFolded m a b).swap ∧
    (compareFolded m a b ≠ .gt → compareFolded m b c ≠ .gt → compareFolded m a c ≠ .gt) := by
  have hs := fun x y => compare_spec (Ucs2.caseFold m x) (Ucs2.caseFold m y)
  refine ⟨(hs a b).2.1, (hs a b).1, (hs a a).2.1.mpr rfl, ?_, ?_⟩
  · unfold compareFolded
    cases h : Ucs2.compare (Ucs2.caseFold m a) (Ucs2.caseFold m b) with
    | lt => exact (hs b a).2.2.mpr ((hs a b).1.mp h)
    | eq => exact (hs b a).2.1.mpr ((hs a b).2.1.mp h).symm
    | gt => exact (hs b a).1.mpr ((hs a b).2.2.mp h)
  · unfold compareFolded
    intro h1 h2 h3
    have h3 := (hs a c).2.2.mp h3
    have key : ∀ x y, Ucs2.compare (Ucs2.caseFold m x) (Ucs2.caseFold m y) ≠ .gt →
        LexLt (Ucs2.caseFold m x) (Ucs2.caseFold m y) ∨ Ucs2.caseFold m x = Ucs2.caseFold m y := by
      intro x y h
      cases e : Ucs2.compare (Ucs2.caseFold m x) (Ucs2.caseFold m y) with
      | lt => exact .inl ((hs x y).1.mp e)
      | eq => exact .inr ((hs x y).2.1.mp e)
      | gt => exact absurd e h
    have irr : ¬ LexLt (Ucs2.caseFold m a) (Ucs2.caseFold m a) := by
      intro h
      have := (hs a a).1.mpr h
      rw [(hs a a).2.1.mpr rfl] at this
      cases this
    rcases key a b h1 with h1 | h1
    · rcases key b c h2 with h2 | h2
      · exact irr (lexLt_trans h1 (lexLt_trans h2 h3))
      · rw [← h2] at h3; exact irr (lexLt_trans h1 h3)
    · rcases key b c h2 with h2 | h2
      · rw [← h1] at h2; exact irr (lexLt_trans h2 h3)
      · rw [← h2, ← h1] at h3; exact irr h3

example : compareFolded (fun x => if x = 0x61 then some 0x41 else none) [0x61, 2] [0x41, 3] = .lt := by
  decide

end Keramics.Props
