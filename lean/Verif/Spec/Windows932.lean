import Verif.Base.R

/-! Characters of Windows 932, from the definition of the code page: a character is one byte (ASCII or
half-width katakana) or a first byte and a second byte. NEC row 13, the NEC selection of IBM
extensions (rows 0xed, 0xee) and the IBM extensions (rows 0xfa to 0xfc) hold characters that the code
page also has elsewhere. -/

namespace Keramics.Spec.Windows932

/-- A byte that is a character. -/
def single (b : Byte) : Prop := b.toNat < 0x80 ∨ (0xa1 ≤ b.toNat ∧ b.toNat ≤ 0xdf)

/-- A byte that starts a character of two bytes. -/
def first (b : Byte) : Prop :=
  (0x81 ≤ b.toNat ∧ b.toNat ≤ 0x9f) ∨ (0xe0 ≤ b.toNat ∧ b.toNat ≤ 0xfc)

/-- A byte that ends a character of two bytes. -/
def second (a : Byte) : Prop := 0x40 ≤ a.toNat ∧ a.toNat ≤ 0xfc ∧ a.toNat ≠ 0x7f

/-- The bytes have the form of one character. -/
inductive Char : List Byte → Prop
  | one {b : Byte} : single b → Char [b]
  | two {b a : Byte} : first b → second a → Char [b, a]

/-- The second codes of characters that the code page has twice: nine of NEC row 13, one of the NEC
selection, and all IBM extensions. -/
def Second (bs : List Byte) : Prop :=
  ∃ b a : Byte, bs = [b, a] ∧
    ((b = 0x87#8 ∧ a ∈ [0x90#8, 0x91#8, 0x92#8, 0x95#8, 0x96#8, 0x97#8, 0x9a#8, 0x9b#8, 0x9c#8]) ∨
      (b = 0xee#8 ∧ a = 0xf9#8) ∨ (0xfa ≤ b.toNat ∧ b.toNat ≤ 0xfc))

/-- A code point that is a character of Unicode and is at most four hexadecimal digits long. -/
def scalar (c : Nat) : Prop := c < 0xd800 ∨ (0xe000 ≤ c ∧ c < 0x10000)

end Keramics.Spec.Windows932
