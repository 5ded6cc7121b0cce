/-!
# Canonical Huffman codes

RFC 1951 section 3.2.2: a code is given by the list of code lengths of its symbols (0 for a symbol
that has no code). Codes of a length are consecutive numbers in symbol order; the first code of a
length follows from the number of shorter codes.
-/

namespace Keramics.Spec.Huffman

/-- The number of codes of length `l`. -/
def count (lens : List Nat) (l : Nat) : Nat := if l = 0 then 0 else lens.count l

/-- The first code of length `l` (`next_code` of the RFC). -/
def first (lens : List Nat) : Nat → Nat
  | 0 => 0
  | l + 1 => 2 * (first lens l + count lens l)

/-- The number of the code of a symbol. -/
def code (lens : List Nat) (symbol : Nat) : Nat :=
  let l := lens.getD symbol 0
  first lens l + (lens.take symbol).count l

/-- The lowest `l` bits of a number, most significant bit first. -/
def bits : Nat → Nat → List Bool
  | 0, _ => []
  | l + 1, v => decide (v / 2 ^ l % 2 = 1) :: bits l v

/-- The code of a symbol as it is stored: most significant bit first. -/
def codeBits (lens : List Nat) (symbol : Nat) : List Bool :=
  bits (lens.getD symbol 0) (code lens symbol)

/-- A symbol that has a code. -/
def Coded (lens : List Nat) (symbol : Nat) : Prop := 0 < lens.getD symbol 0

/-- Kraft's inequality, in units of `2 ^ (-m)`: the lengths are those of a prefix code. -/
def Kraft (m : Nat) (lens : List Nat) : Prop :=
  ((lens.filter (0 < ·)).map fun l => 2 ^ (m - l)).sum ≤ 2 ^ m

/-- Lengths at most `m`, at least one symbol with a code, no over-subscription. -/
def Valid (m : Nat) (lens : List Nat) : Prop :=
  (∀ l ∈ lens, l ≤ m) ∧ (∃ l ∈ lens, l ≠ 0) ∧ Kraft m lens

end Keramics.Spec.Huffman
