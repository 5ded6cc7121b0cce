import Verif.Model.Tools
import Verif.Spec.Tools
import Verif.Spec.Utf8
import Verif.Lemmas.Types
import Verif.Lemmas.DateTime
import Verif.Lemmas.Fat
import Verif.Props.Utf8

/-!
# C51, C52, C53: display strings, bodyfile timestamps and EWF segment file extensions
-/

namespace Keramics.Props
open Keramics.Spec

/-! ## C51 -/

/-- Reads `\U########` or `\U{########}` after the `\U`. -/
def unescapeU (rest : List Nat) : Nat × List Nat :=
  if rest.head? = some 0x7b then (hexFold 0 ((rest.tail.take 8).map (BitVec.ofNat 8)), rest.tail.drop 9)
  else (hexFold 0 ((rest.take 8).map (BitVec.ofNat 8)), rest.drop 8)

/-- Reads one escaped character. -/
def unescape : List Nat → Option (Nat × List Nat)
  | [] => none
  | [c] => some (c, [])
  | c :: d :: rest =>
    if c ≠ 0x5c then some (c, d :: rest)
    else if d = 0x78 then some (hexFold 0 ((rest.take 2).map (BitVec.ofNat 8)), rest.drop 2)
    else if d = 0x55 then some (unescapeU rest)
    else some (d, rest)

private theorem hex_eq {w v : Nat} (hw : 0 < w) (hv : v < 16 ^ w) (rest : List Nat) :
    hexFold 0 (((Display.hex w v ++ rest).take w).map (BitVec.ofNat 8)) = v ∧ (Display.hex w v ++ rest).drop w = rest ∧
      (Display.hex w v).length = w ∧ ∀ x ∈ Display.hex w v, x ≠ 0x7b := by
  have hl : (Display.hex w v).length = w := by
    unfold Display.hex
    rw [formatHex_eq hw hv, List.length_map, hexDigits_length]
  refine ⟨?_, by rw [List.drop_left' hl], hl, ?_⟩
  · rw [List.take_left' hl]
    unfold Display.hex
    rw [formatHex_eq hw hv, List.map_map]
    have : (BitVec.ofNat 8 ∘ BitVec.toNat : Byte → Byte) = id := by funext b; simp
    rw [this, List.map_id, hexFold_hexDigits, Nat.mod_eq_of_lt hv]
    omega
  · intro x hx
    unfold Display.hex at hx
    rw [formatHex_eq hw hv] at hx
    obtain ⟨b, hb, rfl⟩ := List.mem_map.1 hx
    have := (hex_facts b (hexDigits_hex w v b hb).1).2.2.2.2.2.2
    intro h
    exact this (BitVec.eq_of_toNat_eq h)

private theorem unescape_x {v : Nat} (hv : v < 256) (rest : List Nat) : unescape ([0x5c, 0x78] ++ Display.hex 2 v ++ rest) = some (v, rest) := by
  obtain ⟨h1, h2, -, -⟩ := hex_eq (w := 2) (by decide) hv rest
  show some (hexFold 0 (((Display.hex 2 v ++ rest).take 2).map _), (Display.hex 2 v ++ rest).drop 2) = _
  rw [h1, h2]

private theorem unescape_U {v : Nat} (hv : v < 2 ^ 32) (rest : List Nat) : unescape ([0x5c, 0x55] ++ Display.hex 8 v ++ rest) = some (v, rest) := by
  obtain ⟨h1, h2, h3, h4⟩ := hex_eq (w := 8) (by decide) (show v < 16 ^ 8 by omega) rest
  obtain ⟨x, xs, hx⟩ : ∃ x xs, Display.hex 8 v = x :: xs := List.exists_cons_of_length_pos (by omega)
  have hne : x ≠ 0x7b := h4 x (by rw [hx]; simp)
  show some (unescapeU (Display.hex 8 v ++ rest)) = _
  unfold unescapeU
  rw [if_neg (by rw [hx]; simpa using hne), h1, h2]

private theorem unescape_brace {v : Nat} (hv : v < 2 ^ 32) (rest : List Nat) :
    unescape ([0x5c, 0x55, 0x7b] ++ Display.hex 8 v ++ [0x7d] ++ rest) = some (v, rest) := by
  obtain ⟨h1, h2, h3, -⟩ := hex_eq (w := 8) (by decide) (show v < 16 ^ 8 by omega) (0x7d :: rest)
  have : [0x5c, 0x55, 0x7b] ++ Display.hex 8 v ++ [0x7d] ++ rest = 0x5c :: 0x55 :: 0x7b :: (Display.hex 8 v ++ 0x7d :: rest) := by simp
  rw [this]
  show some (unescapeU (0x7b :: (Display.hex 8 v ++ 0x7d :: rest))) = _
  unfold unescapeU
  rw [if_pos (by simp), List.tail_cons, h1, ← List.drop_drop (i := 1) (j := 8), h2]
  rfl

theorem unescape_character (c : Nat) (rest : List Nat) : unescape (Display.character c ++ rest) = some (c, rest) := by
  have hp : ∀ x ∈ Display.nonPrintableCharacters, x < 2 ^ 32 := by decide
  have hu : ∀ x ∈ Display.undefinedCharacters, x < 2 ^ 32 := by decide
  unfold Display.character Display.translate
  split
  · rename_i h; exact unescape_U (hp c h) rest
  split
  · rename_i h; exact unescape_U (hu c h) rest
  split
  · rename_i h; exact unescape_x (by omega) rest
  split
  · rename_i h; subst h; rfl
  split
  · rename_i h; subst h; rfl
  split
  · rename_i h; subst h; rfl
  split
  · rename_i h; exact unescape_x (by omega) rest
  · rename_i h _ _ _
    show unescape (c :: rest) = _
    cases rest with
    | nil => rfl
    | cons d rest => rw [unescape, if_pos h]

/-- Tokens that can be read back make an unambiguous text. -/
private theorem flatMap_unambiguous (f g : Nat → List Nat) (s t : List Nat) (hf : ∀ c ∈ s, ∀ rest, unescape (f c ++ rest) = some (c, rest))
    (hg : ∀ c ∈ t, ∀ rest, unescape (g c ++ rest) = some (c, rest)) (h : s.flatMap f = t.flatMap g) : s = t := by
  induction s generalizing t with
  | nil =>
    cases t with
    | nil => rfl
    | cons d t =>
      have := hg d (by simp) (t.flatMap g)
      rw [← List.flatMap_cons, ← h] at this
      cases this
  | cons c s ih =>
    have h1 := hf c (by simp) (s.flatMap f)
    rw [← List.flatMap_cons, h] at h1
    cases t with
    | nil => cases h1
    | cons d t =>
      rw [List.flatMap_cons, hg d (by simp)] at h1
      simp only [Option.some.injEq, Prod.mk.injEq] at h1
      rw [h1.1, ih t (fun x hx => hf x (List.mem_cons_of_mem _ hx)) (fun x hx => hg x (List.mem_cons_of_mem _ hx)) h1.2.symm]

theorem unescape_codePoint {c : Nat} (hc : c < 2 ^ 32) (rest : List Nat) :
    unescape ((if Display.isChar c then Display.character c else [0x5c, 0x55, 0x7b] ++ Display.hex 8 c ++ [0x7d]) ++ rest) = some (c, rest) := by
  split
  · exact unescape_character c rest
  · exact unescape_brace hc rest

theorem unescape_ucs2 {c : Nat} (hc : c < 2 ^ 16) (rest : List Nat) :
    unescape ((if Display.isChar c then Display.character c else [0x5c, 0x55] ++ Display.hex 8 c) ++ rest) = some (c, rest) := by
  split
  · exact unescape_character c rest
  · exact unescape_U (by omega) rest

/-- C51: two strings with the same escaped form are equal. -/
theorem C51_text (s t : List Nat) (h : Display.escapeText s = Display.escapeText t) : s = t :=
  flatMap_unambiguous _ _ s t (fun c _ => unescape_character c) (fun c _ => unescape_character c) h

/-- C51 for UCS-2 strings, also if they have surrogates. -/
theorem C51_ucs2 (s t : List Nat) (hs : ∀ c ∈ s, c < 2 ^ 16) (ht : ∀ c ∈ t, c < 2 ^ 16) (h : Display.escapeUcs2 s = Display.escapeUcs2 t) : s = t :=
  flatMap_unambiguous _ _ s t (fun c hc => unescape_ucs2 (hs c hc)) (fun c hc => unescape_ucs2 (ht c hc)) h

/-- C51 for the 32-bit code points of byte strings, also if they are no characters. -/
theorem C51_code_points (s t : List Nat) (hs : ∀ c ∈ s, c < 2 ^ 32) (ht : ∀ c ∈ t, c < 2 ^ 32)
    (h : Display.escapeCodePoints s = Display.escapeCodePoints t) : s = t :=
  flatMap_unambiguous _ _ s t (fun c hc => unescape_codePoint (hs c hc)) (fun c hc => unescape_codePoint (ht c hc)) h

/-- C51 for byte strings in UTF-8. -/
theorem C51_utf8 (s t : List Nat) (hs : ∀ c ∈ s, Utf8.isScalar c) (ht : ∀ c ∈ t, Utf8.isScalar c)
    (h : Display.escapeUtf8 (s.flatMap Utf8.encode) = Display.escapeUtf8 (t.flatMap Utf8.encode)) :
    s.flatMap Utf8.encode = t.flatMap Utf8.encode := by
  unfold Display.escapeUtf8 at h
  rw [C18_decode_encode s hs, C18_decode_encode t ht] at h
  simp only [R.ok.injEq] at h
  rw [C51_code_points s t (fun c hc => by have := hs c hc; unfold Utf8.isScalar at this; omega)
    (fun c hc => by have := ht c hc; unfold Utf8.isScalar at this; omega) h]

/-- C51 across the kinds of strings: the same escaped form means the same characters. -/
theorem C51_kinds (s t : List Nat) (ht : ∀ c ∈ t, c < 2 ^ 16) (h : Display.escapeText s = Display.escapeUcs2 t) : s = t :=
  flatMap_unambiguous _ _ s t (fun c _ => unescape_character c) (fun c hc => unescape_ucs2 (ht c hc)) h

/-- "a:\n" is shown as "a\:\x0a". -/
example : Display.escapeText ("a:\n".toList.map Char.toNat) = "a\\:\\x0a".toList.map Char.toNat := by decide +kernel

theorem hex_alnum {w v : Nat} (hw : 0 < w) (hv : v < 16 ^ w) :
    ∀ x ∈ Display.hex w v, (0x30 ≤ x ∧ x ≤ 0x39) ∨ (0x41 ≤ x ∧ x ≤ 0x46) ∨ (0x61 ≤ x ∧ x ≤ 0x66) := by
  intro x hx
  unfold Display.hex at hx
  rw [formatHex_eq hw hv] at hx
  obtain ⟨b, hb, rfl⟩ := List.mem_map.1 hx
  have hd : ∀ b : Byte, isHexDigit b = true →
      (0x30 ≤ b.toNat ∧ b.toNat ≤ 0x39) ∨ (0x41 ≤ b.toNat ∧ b.toNat ≤ 0x46) ∨ (0x61 ≤ b.toNat ∧ b.toNat ≤ 0x66) := by
    decide +kernel
  exact hd b (hexDigits_hex w v b hb).1

private theorem bare_cons {c : Nat} (h : c ≠ 0x5c) (rest : List Nat) : bare (c :: rest) = c :: bare rest := by
  rw [bare.eq_def]
  split
  · rename_i heq; cases heq; omega
  · rename_i heq; cases heq; rfl
  · rename_i heq; cases heq

private theorem bare_append {p : List Nat} (h : ∀ x ∈ p, x ≠ 0x5c) (rest : List Nat) : bare (p ++ rest) = p ++ bare rest := by
  induction p with
  | nil => rfl
  | cons c p ih =>
    rw [List.cons_append, bare_cons (h c (by simp)), ih (fun x hx => h x (List.mem_cons_of_mem _ hx)), List.cons_append]

/-- What the form of one character is made of. -/
private def Token (tok : List Nat) : Prop :=
  (∀ x ∈ tok, ¬ isControl x ∧ (isNoncharacter x → 0xfde0 ≤ x ∧ x ≤ 0xfdef)) ∧
    ∀ rest, ∃ p, bare (tok ++ rest) = p ++ bare rest ∧ 0x2f ∉ p ∧ 0x3a ∉ p

private theorem token_escape {d : Nat} {p : List Nat} (hd : 0x20 ≤ d ∧ d < 0x7f) (hp : ∀ x ∈ p, 0x3a < x ∧ x < 0x7f ∧ x ≠ 0x5c ∨ 0x30 ≤ x ∧ x < 0x3a) :
    Token (0x5c :: d :: p) := by
  refine ⟨fun x hx => ?_, fun rest => ⟨p, ?_, fun h => ?_, fun h => ?_⟩⟩
  · have : 0x20 ≤ x ∧ x < 0x7f := by
      rcases List.mem_cons.1 hx with rfl | hx
      · omega
      rcases List.mem_cons.1 hx with rfl | hx
      · exact hd
      · have := hp x hx; omega
    unfold isControl isNoncharacter
    omega
  · rw [List.cons_append, List.cons_append, bare, bare_append (fun x hx => by have := hp x hx; omega)]
  · have := hp _ h; omega
  · have := hp _ h; omega

private theorem token_hex {w v d : Nat} (hw : 0 < w) (hv : v < 16 ^ w) (hd : 0x20 ≤ d ∧ d < 0x7f) : Token ([0x5c, d] ++ Display.hex w v) :=
  token_escape hd fun x hx => by have := hex_alnum hw hv x hx; omega

private theorem token_character {c : Nat} (hc : c < 0x110000) : Token (Display.character c) := by
  have hp : ∀ x ∈ Display.nonPrintableCharacters, x < 2 ^ 32 := by decide
  have hu : ∀ x ∈ Display.undefinedCharacters, x < 2 ^ 32 := by decide
  have hn : isNoncharacter c → ¬ (0xfde0 ≤ c ∧ c ≤ 0xfdef) → c ∈ Display.undefinedCharacters := by
    intro h1 h2
    have : c ∈ Display.undefinedCharacters ↔ (0xfdd0 ≤ c ∧ c ≤ 0xfddf) ∨ (0xfffe ≤ c % 0x10000 ∧ c < 0x110000) := by
      unfold Display.undefinedCharacters
      simp only [List.mem_cons, List.not_mem_nil, or_false]
      omega
    rw [this]
    unfold isNoncharacter at h1
    omega
  unfold Display.character Display.translate
  split
  · rename_i h; exact token_hex (by decide) (hp c h) (by decide)
  split
  · rename_i h; exact token_hex (by decide) (hu c h) (by decide)
  split
  · rename_i h; exact token_hex (by decide) (by omega) (by decide)
  split
  · exact token_escape (by decide) (by simp)
  split
  · exact token_escape (by decide) (by simp)
  split
  · exact token_escape (by decide) (by simp)
  split
  · rename_i h; exact token_hex (by decide) (by omega) (by decide)
  · rename_i h1 h2 h3 h4 h5 h6 h7
    show Token [c]
    refine ⟨fun x hx => ?_, fun rest => ⟨[c], bare_cons h4 rest, by simpa using fun h => h6 h.symm, by simpa using fun h => h5 h.symm⟩⟩
    have hx := List.mem_singleton.1 hx
    subst hx
    refine ⟨by unfold isControl; omega, fun h => ?_⟩
    by_cases h' : 0xfde0 ≤ x ∧ x ≤ 0xfdef
    · exact h'
    · exact absurd (hn h h') h2

private theorem safe_flatMap (f : Nat → List Nat) (s : List Nat) (hf : ∀ c ∈ s, Token (f c)) :
    Safe (s.flatMap f) ∧ ∀ x ∈ s.flatMap f, isNoncharacter x → 0xfde0 ≤ x ∧ x ≤ 0xfdef := by
  refine ⟨⟨fun x hx => ?_, ?_⟩, fun x hx => ?_⟩
  · obtain ⟨c, hc, hx⟩ := List.mem_flatMap.1 hx
    exact ((hf c hc).1 x hx).1
  · induction s with
    | nil => exact ⟨by simp [bare], by simp [bare]⟩
    | cons c s ih =>
      obtain ⟨p, hp, h1, h2⟩ := (hf c (by simp)).2 (s.flatMap f)
      obtain ⟨i1, i2⟩ := ih (fun x hx => hf x (List.mem_cons_of_mem _ hx))
      rw [List.flatMap_cons, hp]
      simp only [List.mem_append, not_or]
      exact ⟨⟨h1, i1⟩, h2, i2⟩
  · obtain ⟨c, hc, hx⟩ := List.mem_flatMap.1 hx
    exact ((hf c hc).1 x hx).2

/-- C51: the escaped form of a text is safe to show, and its only noncharacters are U+FDE0 to U+FDEF. What is missing:
these sixteen are noncharacters too and are shown as they are, see `C51_violated_noncharacter`. -/
theorem C51_safe_partial (s : List Nat) :
    ((∀ c ∈ s, c < 0x110000) →
      Safe (Display.escapeText s) ∧ ∀ x ∈ Display.escapeText s, isNoncharacter x → 0xfde0 ≤ x ∧ x ≤ 0xfdef) ∧
    ((∀ c ∈ s, c < 2 ^ 16) →
      Safe (Display.escapeUcs2 s) ∧ ∀ x ∈ Display.escapeUcs2 s, isNoncharacter x → 0xfde0 ≤ x ∧ x ≤ 0xfdef) ∧
    ((∀ c ∈ s, c < 2 ^ 32) →
      Safe (Display.escapeCodePoints s) ∧ ∀ x ∈ Display.escapeCodePoints s, isNoncharacter x → 0xfde0 ≤ x ∧ x ≤ 0xfdef) := by
  refine ⟨fun h => safe_flatMap _ s fun c hc => token_character (h c hc), fun h => safe_flatMap _ s fun c hc => ?_,
    fun h => safe_flatMap _ s fun c hc => ?_⟩
  · have := h c hc
    split
    · exact token_character (by omega)
    · exact token_hex (by decide) (by omega) (by decide)
  · have := h c hc
    split
    · rename_i hi
      exact token_character (by simp [Display.isChar] at hi; omega)
    · refine token_escape (d := 0x55) (p := 0x7b :: (Display.hex 8 c ++ [0x7d])) (by decide) fun x hx => ?_
      simp only [List.mem_cons, List.mem_append, List.not_mem_nil, or_false] at hx
      rcases hx with rfl | hx | rfl
      · omega
      · have := hex_alnum (by decide) (show c < 16 ^ 8 by omega) x hx; omega
      · omega

/-- C51: characters that need no escape are shown as they are, in all kinds of strings. -/
theorem C51_kept (s : List Nat)
    (h : ∀ c ∈ s, ¬ isControl c ∧ c ≠ 0x2f ∧ c ≠ 0x3a ∧ c ≠ 0x5c ∧ ¬ isNoncharacter c ∧ ¬ (0xd800 ≤ c ∧ c < 0xe000) ∧ c < 0x110000 ∧
      c ∉ [0x2028, 0x2029, 0xe000, 0xf8ff, 0xf0000, 0xffffd, 0x100000, 0x10fffd]) :
    Display.escapeText s = s ∧ Display.escapeUcs2 s = s ∧ Display.escapeCodePoints s = s := by
  have hc : ∀ c ∈ s, Display.character c = [c] ∧ Display.isChar c = true := by
    intro c hc
    obtain ⟨h1, h2, h3, h4, h5, h6, h7, h8⟩ := h c hc
    unfold isControl at h1
    have hn : c ∉ Display.undefinedCharacters := by
      unfold Display.undefinedCharacters
      unfold isNoncharacter at h5
      simp only [List.mem_cons, List.not_mem_nil, or_false]
      omega
    refine ⟨?_, ?_⟩
    · unfold Display.character Display.translate
      rw [if_neg (show c ∉ Display.nonPrintableCharacters from h8), if_neg hn, if_neg (by omega), if_neg (by omega), if_neg (by omega), if_neg (by omega), if_neg (by omega)]
      rfl
    · simp only [Display.isChar, Bool.or_eq_true, Bool.and_eq_true, decide_eq_true_eq]
      omega
  have hid : ∀ (f : Nat → List Nat), (∀ c ∈ s, f c = [c]) → s.flatMap f = s := by
    intro f hf
    clear h hc
    induction s with
    | nil => rfl
    | cons c s ih => rw [List.flatMap_cons, hf c (by simp), ih (fun x hx => hf x (List.mem_cons_of_mem _ hx))]; rfl
  refine ⟨hid _ fun c h => (hc c h).1, hid _ fun c h => ?_, hid _ fun c h => ?_⟩
  · rw [if_pos (hc c h).2, (hc c h).1]
  · rw [if_pos (hc c h).2, (hc c h).1]

/-- C51 is violated: the noncharacters U+FDE0 to U+FDEF are shown as they are, others are escaped. -/
theorem C51_violated_noncharacter (c : Nat) (h : 0xfde0 ≤ c ∧ c ≤ 0xfdef) :
    isNoncharacter c ∧ Display.escapeText [c] = [c] ∧ Display.escapeText [0xfdd0] = "\\U0000fdd0".toList.map Char.toNat := by
  refine ⟨by unfold isNoncharacter; omega, ?_, by decide +kernel⟩
  show Display.character c ++ [] = [c]
  unfold Display.character Display.translate
  rw [if_neg, if_neg, if_neg (by omega), if_neg (by omega), if_neg (by omega), if_neg (by omega), if_neg (by omega)]
  · rfl
  all_goals
    simp only [Display.undefinedCharacters, Display.nonPrintableCharacters, List.mem_cons, List.not_mem_nil, or_false]
    omega

example : Display.escapeText ("über".toList.map Char.toNat) = "über".toList.map Char.toNat ∧
    bare ("a\\/b".toList.map Char.toNat) = "ab".toList.map Char.toNat := by decide +kernel

/-! ## C52 -/

private theorem digits_fold (w v acc : Nat) :
    (Calendar.digits w v).foldl (fun v c => 10 * v + (c.toNat - 48)) acc = acc * 10 ^ w + v % 10 ^ w := by
  induction w generalizing v with
  | zero => simp [Calendar.digits, Nat.mod_one]
  | succ w ih =>
    have hd : ∀ d, d < 10 → (Char.ofNat (48 + d)).toNat - 48 = d := by decide
    rw [Calendar.digits, List.foldl_append, ih, List.foldl_cons, List.foldl_nil, hd _ (Nat.mod_lt _ (by omega)), Nat.pow_succ 10 w,
      Nat.mul_comm (10 ^ w) 10, Nat.mod_mul, Nat.mul_add, Nat.mul_left_comm]
    omega

theorem digits_all (w v : Nat) : (Calendar.digits w v).all Char.isDigit = true ∧ (Calendar.digits w v).length = w := by
  induction w generalizing v with
  | zero => exact ⟨rfl, rfl⟩
  | succ w ih =>
    have hd : ∀ d, d < 10 → (Char.ofNat (48 + d)).isDigit = true := by decide
    rw [Calendar.digits, List.all_append, (ih _).1, List.length_append, (ih _).2]
    exact ⟨by simp [hd _ (Nat.mod_lt v (show 0 < 10 by omega))], rfl⟩

private theorem digits_decimal {w v : Nat} (hw : 0 < w) (hv : v < 10 ^ w) : decimal (Calendar.digits w v) = some v := by
  unfold decimal
  rw [if_pos ⟨by intro h; have := (digits_all w v).2; rw [h] at this; simp at this; omega, (digits_all w v).1⟩, digits_fold, Nat.mod_eq_of_lt hv]
  simp

theorem formatDec_zero (v : Nat) : ∃ w, 0 < w ∧ v < 10 ^ w ∧ DateTime.formatDec 0 v = Calendar.digits w v := by
  have hpos : 0 < (Nat.toDigits 10 v).length := Nat.length_toDigits_pos
  refine ⟨(Nat.toDigits 10 v).length, hpos, (Nat.length_toDigits_le_iff (by decide) hpos).1 (Nat.le_refl _), ?_⟩
  unfold DateTime.formatDec
  rw [Nat.zero_max, DateTime.decDigits_eq]

private theorem digit_ne {w v : Nat} {c : Char} (h : c ∈ Calendar.digits w v) : c ≠ '.' ∧ c ≠ '-' := by
  have := List.all_eq_true.1 (digits_all w v).1 c h
  constructor <;> (rintro rfl; exact absurd this (by decide))

/-- The value of a printed number with a fraction. -/
private theorem decimalFraction_format {k : Nat} (hk : 0 < k) (v : Int) (f : Nat) (hf : f < 10 ^ k) :
    decimalFraction k (DateTime.formatInt 0 v ++ ['.'] ++ DateTime.formatDec k f) =
      some (if v < 0 then -((v.natAbs * 10 ^ k + f : Nat) : Int) else ((v.natAbs * 10 ^ k + f : Nat) : Int)) := by
  obtain ⟨w, hw, hv, e⟩ := formatDec_zero v.natAbs
  have hfrac := DateTime.formatDec_eq hk hf
  obtain ⟨x, xs, hx⟩ : ∃ x xs, Calendar.digits w v.natAbs = x :: xs := List.exists_cons_of_length_pos (by rw [(digits_all w _).2]; exact hw)
  have hxne : x ≠ '-' := (digit_ne (hx ▸ List.mem_cons_self)).2
  have htake : (Calendar.digits w v.natAbs ++ '.' :: Calendar.digits k f).takeWhile (fun c => decide (c ≠ '.')) = Calendar.digits w v.natAbs := by
    rw [List.takeWhile_append_of_pos (fun c hc => by simpa using (digit_ne hc).1), List.takeWhile_cons_of_neg (by simp), List.append_nil]
  have hdrop : (Calendar.digits w v.natAbs ++ '.' :: Calendar.digits k f).drop ((Calendar.digits w v.natAbs).length + 1) = Calendar.digits k f := by
    rw [List.drop_length_add_append]; rfl
  unfold decimalFraction DateTime.formatInt
  by_cases hneg : v < 0
  · rw [if_pos hneg, if_pos hneg, show 0 - 1 = 0 from rfl, e, hfrac]
    have : '-' :: Calendar.digits w v.natAbs ++ ['.'] ++ Calendar.digits k f = '-' :: (Calendar.digits w v.natAbs ++ '.' :: Calendar.digits k f) := by simp
    rw [this]
    simp only [List.head?_cons, if_true, List.tail_cons, htake, hdrop, digits_decimal hw hv, digits_decimal hk hf, (digits_all k f).2]
  · rw [if_neg hneg, if_neg hneg, e, hfrac]
    have : Calendar.digits w v.natAbs ++ ['.'] ++ Calendar.digits k f = Calendar.digits w v.natAbs ++ '.' :: Calendar.digits k f := by simp
    rw [this]
    have hh : (Calendar.digits w v.natAbs ++ '.' :: Calendar.digits k f).head? ≠ some '-' := by rw [hx]; simpa using hxne
    simp only [hh, if_false, htake, hdrop, digits_decimal hw hv, digits_decimal hk hf, (digits_all k f).2]
    rfl

/-- C52: the value printed for a FILETIME is the number of seconds since 1970, to the last of its 7 decimals. Missing:
the last second before 1970, for which the property does not hold. -/
theorem C52_filetime_partial (timestamp : Nat) (h : ¬ (116444735990000000 < timestamp ∧ timestamp < 116444736000000000)) :
    decimalFraction 7 (Bodyfile.filetime timestamp) = some ((timestamp : Int) - 116444736000000000) := by
  unfold Bodyfile.filetime
  simp only
  split
  · simp only
    rw [decimalFraction_format (by decide) _ _ (by omega)]
    congr 1
    split <;> omega
  · simp only
    rw [decimalFraction_format (by decide) _ _ (by omega)]
    congr 1
    split <;> omega

/-- C52 does not hold as stated: for every instant in the second before 1970 the sign is lost. -/
theorem C52_violated_sign (timestamp : Nat) (h1 : 116444735990000000 < timestamp) (h2 : timestamp < 116444736000000000) :
    decimalFraction 7 (Bodyfile.filetime timestamp) = some (116444736000000000 - (timestamp : Int)) ∧
      (116444736000000000 - (timestamp : Int)) ≠ (timestamp : Int) - 116444736000000000 := by
  refine ⟨?_, by omega⟩
  unfold Bodyfile.filetime
  simp only
  split
  · simp only
    rw [decimalFraction_format (by decide) _ _ (by omega)]
    congr 1
    split <;> omega
  · omega

/-- The texts of one and a half seconds before and after 1970, and of a tenth of a microsecond before it. -/
example : Bodyfile.filetime 116444735985000000 = "-1.5000000".toList ∧ Bodyfile.filetime 116444736015000000 = "1.5000000".toList ∧
    Bodyfile.filetime 116444735999999999 = "0.0000001".toList := by decide +kernel

/-- C52: the value printed for a POSIX time is the number of seconds. -/
theorem C52_posix (timestamp : Int) :
    (if 0 ≤ timestamp then (decimal (Bodyfile.posix32 timestamp)).map Int.ofNat
      else if (Bodyfile.posix32 timestamp).head? = some '-' then (decimal (Bodyfile.posix32 timestamp).tail).map fun v => -(v : Int)
      else none) = some timestamp := by
  obtain ⟨w, hw, hv, e⟩ := formatDec_zero timestamp.natAbs
  unfold Bodyfile.posix32 DateTime.formatInt
  by_cases h : timestamp < 0
  · rw [if_neg (by omega), if_pos h, show 0 - 1 = 0 from rfl, e, if_pos (by rfl), List.tail_cons, digits_decimal hw hv]
    exact congrArg some (show -((timestamp.natAbs : Nat) : Int) = timestamp by omega)
  · rw [if_pos (by omega), if_neg h, e, digits_decimal hw hv]
    exact congrArg some (show ((timestamp.natAbs : Nat) : Int) = timestamp by omega)

/-- C52: the value printed for a POSIX time with nanoseconds is the number of seconds, to the last of its 9 decimals. Missing: the
instants before 1970 that are no whole second, for which the property does not hold. -/
theorem C52_posix_nanoseconds_partial (timestamp : Int) (fraction : Nat) (hf : fraction < 1000000000) (h : 0 ≤ timestamp ∨ fraction = 0) :
    decimalFraction 9 (Bodyfile.posix64 timestamp fraction) = some (timestamp * 1000000000 + fraction) := by
  unfold Bodyfile.posix64
  rw [decimalFraction_format (by decide) _ _ (by omega)]
  congr 1
  split <;> omega

/-- C52 does not hold as stated: for every instant before 1970 that is no whole second the fraction is printed as if it counted
away from 1970: the value is less than it should be. -/
theorem C52_violated_nanoseconds (timestamp : Int) (fraction : Nat) (hf : fraction < 1000000000) (h : timestamp < 0) (h' : 0 < fraction) :
    ∃ value, decimalFraction 9 (Bodyfile.posix64 timestamp fraction) = some value ∧ value < timestamp * 1000000000 + fraction := by
  unfold Bodyfile.posix64
  rw [decimalFraction_format (by decide) _ _ (by omega), if_pos h]
  exact ⟨_, rfl, by omega⟩

/-- The texts of a second before 1970, of a second and a half after it and of half a second before it, which is that of one and a
half seconds before. -/
example : Bodyfile.posix32 (-1) = "-1".toList ∧ Bodyfile.posix64 1 500000000 = "1.500000000".toList ∧
    Bodyfile.posix64 (-1) 500000000 = "-1.500000000".toList := by decide +kernel

/-! ## C53 -/

private theorem letters_length (a z : Char) : (letters a z).length = z.toNat - a.toNat + 1 := by simp [letters]

private theorem letters_get (a z : Char) {i : Nat} (h : i < z.toNat - a.toNat + 1) : (letters a z)[i]? = some (Char.ofNat (a.toNat + i)) := by
  unfold letters
  rw [List.getElem?_map, List.getElem?_range h]; rfl

private theorem extensions_letters {first a z : Char} (hz : z.toNat = a.toNat + 25) :
    ((letters first z).flatMap fun x => (letters a z).flatMap fun y => (letters a z).map fun w => [x, y, w]).length = (z.toNat - first.toNat + 1) * 676 ∧
    ∀ k, k < (z.toNat - first.toNat + 1) * 676 →
      ((letters first z).flatMap fun x => (letters a z).flatMap fun y => (letters a z).map fun w => [x, y, w])[k]? =
        some [Char.ofNat (first.toNat + k / 676), Char.ofNat (a.toNat + k / 26 % 26), Char.ofNat (a.toNat + k % 26)] := by
  have hla : (letters a z).length = 26 := by rw [letters_length]; omega
  have h1 : ∀ x, ∀ y ∈ letters a z, ((letters a z).map fun w => [x, y, w]).length = 26 := fun x y _ => by rw [List.length_map, hla]
  have h2 : ∀ x ∈ letters first z, ((letters a z).flatMap fun y => (letters a z).map fun w => [x, y, w]).length = 676 := by
    intro x _
    rw [flatMap_uniform_length (h1 x), hla]
  refine ⟨by rw [flatMap_uniform_length h2, letters_length], ?_⟩
  intro k hk
  have e1 : k = k / 676 * 676 + k % 676 := by omega
  have e2 : k % 676 = k / 26 % 26 * 26 + k % 26 := by omega
  have e3 := flatMap_uniform h2 (i := k / 676) (j := k % 676) (by omega)
  rw [← e1, letters_get first z (by omega), Option.bind_some] at e3
  rw [e3, e2, flatMap_uniform (h1 _) (by omega), letters_get a z (by omega), Option.bind_some, List.getElem?_map, letters_get a z (by omega)]
  rfl

private theorem segmentExtension_eq {n : Nat} {schema : Ewf.Schema} (hn : n ≠ 0) {x : Nat} {xs : List Nat}
    (h : Ewf.extensionCharacters n schema = x :: xs) : Ewf.segmentExtension n schema = if x ≤ schema.last then .ok (x :: xs) else .err := by
  unfold Ewf.segmentExtension
  rw [R.require_true hn, R.ok_bind, h]
  simp only
  by_cases hx : x ≤ schema.last
  · rw [if_pos hx, R.require_true (show ¬ (x :: xs).headD 0 > schema.last by simpa using hx)]; rfl
  · rw [if_neg hx, R.require_false (show ¬ ¬ (x :: xs).headD 0 > schema.last by simpa using hx)]; rfl

/-- C53: the extension of segment `n` is the `n`-th of E01 to E99, EAA to EZZ, FAA to FZZ … ZZZ, likewise for the other
naming schemas; there is an error past the last, and for segment 0. -/
theorem C53_extension (schema : Ewf.Schema) (first a z : Char) (hs : (schema, first, a, z) ∈
      [(Ewf.Schema.e01Upper, 'E', 'A', 'Z'), (.s01Upper, 'S', 'A', 'Z'), (.e01Lower, 'e', 'a', 'z'), (.s01Lower, 's', 'a', 'z')]) (n : Nat) :
    Ewf.segmentExtension n schema = match n with
      | 0 => .err
      | i + 1 => match (segmentExtensions first a z)[i]? with
        | some e => .ok (e.map Char.toNat)
        | none => .err := by
  cases n with
  | zero => rfl
  | succ i =>
    simp only
    have hz : z.toNat = a.toNat + 25 ∧ schema.first = first.toNat ∧ schema.base = a.toNat ∧ schema.last = z.toNat ∧ first.toNat ≤ z.toNat ∧ z.toNat < 128 := by
      simp only [List.mem_cons, Prod.mk.injEq, List.not_mem_nil, or_false] at hs
      rcases hs with ⟨rfl, rfl, rfl, rfl⟩ | ⟨rfl, rfl, rfl, rfl⟩ | ⟨rfl, rfl, rfl, rfl⟩ | ⟨rfl, rfl, rfl, rfl⟩ <;> decide
    obtain ⟨hz, hf, hb, hl, hfz, hz2⟩ := hz
    obtain ⟨hlen, hget⟩ := extensions_letters (first := first) hz
    have hc : ∀ v, v < 128 → (Char.ofNat v).toNat = v := by decide
    unfold segmentExtensions
    by_cases h100 : i + 1 < 100
    · rw [List.getElem?_append_left (by simp; omega), List.getElem?_map, List.getElem?_range (by omega),
        segmentExtension_eq (by omega) (show Ewf.extensionCharacters (i + 1) schema = _ by rw [Ewf.extensionCharacters, if_pos h100]),
        if_pos (by omega)]
      simp only [Option.map_some, List.map_cons, List.map_nil]
      rw [hc _ (by omega), hc _ (by omega), hf]
    · rw [List.getElem?_append_right (by simp; omega)]
      simp only [List.length_map, List.length_range]
      rw [segmentExtension_eq (by omega) (show Ewf.extensionCharacters (i + 1) schema = _ by rw [Ewf.extensionCharacters, if_neg h100]),
        hf, hb, hl, show i + 1 - 100 = i - 99 by omega, Nat.div_div_eq_div_mul]
      by_cases hk : i - 99 < (z.toNat - first.toNat + 1) * 676
      · rw [hget _ hk, if_pos (by omega)]
        simp only [List.map_cons, List.map_nil]
        rw [hc _ (by omega), hc _ (by omega), hc _ (by omega)]
      · rw [if_neg (by omega), List.getElem?_eq_none (by omega)]

/-- C53: different segments have different extensions. -/
theorem C53_distinct (schema : Ewf.Schema) (m n : Nat) (e : List Nat) (hm : Ewf.segmentExtension m schema = .ok e)
    (hn : Ewf.segmentExtension n schema = .ok e) : m = n := by
  unfold Ewf.segmentExtension at hm hn
  obtain ⟨_, m1, hm⟩ := R.bind_eq_ok.1 hm
  obtain ⟨_, m2, hm⟩ := R.bind_eq_ok.1 hm
  obtain ⟨_, n1, hn⟩ := R.bind_eq_ok.1 hn
  obtain ⟨_, n2, hn⟩ := R.bind_eq_ok.1 hn
  have m1 := R.require_eq_ok.1 m1
  have n1 := R.require_eq_ok.1 n1
  have hb : 0x41 ≤ schema.base := by cases schema <;> decide
  have heq : Ewf.extensionCharacters m schema = Ewf.extensionCharacters n schema := by
    have h1 := R.ok.inj hm
    have h2 := R.ok.inj hn
    exact h1.trans h2.symm
  unfold Ewf.extensionCharacters at heq
  split at heq <;> split at heq <;> simp only [List.cons.injEq, and_true] at heq <;> omega

/-- C53: the number of segments of the naming schemas. -/
theorem C53_count : (segmentExtensions 'E' 'A' 'Z').length = 14971 ∧ (segmentExtensions 'S' 'A' 'Z').length = 5507 ∧
    (segmentExtensions 'e' 'a' 'z').length = 14971 ∧ (segmentExtensions 's' 'a' 'z').length = 5507 := by
  have h : ∀ first a z : Char, z.toNat = a.toNat + 25 → (segmentExtensions first a z).length = 99 + (z.toNat - first.toNat + 1) * 676 := by
    intro first a z hz
    unfold segmentExtensions
    rw [List.length_append, (extensions_letters hz).1, List.length_map, List.length_range]
  refine ⟨?_, ?_, ?_, ?_⟩ <;> (rw [h _ _ _ (by decide)]; decide)

/-- Segments 99, 100, 126 and 776. -/
example : Ewf.segmentExtension 99 .e01Upper = .ok ("E99".toList.map Char.toNat) ∧ Ewf.segmentExtension 100 .e01Upper = .ok ("EAA".toList.map Char.toNat) ∧
    Ewf.segmentExtension 126 .e01Upper = .ok ("EBA".toList.map Char.toNat) ∧ Ewf.segmentExtension 776 .s01Lower = .ok ("taa".toList.map Char.toNat) := by
  decide +kernel

end Keramics.Props
