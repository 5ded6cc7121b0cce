import Verif.Base.R

/-! UTF-8 as defined by the Unicode standard (chapter 3.9) and RFC 3629. -/

namespace Keramics.Spec.Utf8

/-- Unicode scalar values: code points that are not surrogates. -/
def isScalar (c : Nat) : Prop := c < 0xd800 ∨ (0xe000 ≤ c ∧ c ≤ 0x10ffff)

/-- The bytes of a code point. -/
def encode (c : Nat) : List Byte :=
  (if c < 0x80 then [c]
   else if c < 0x800 then [0xc0 + c / 64, 0x80 + c % 64]
   else if c < 0x10000 then [0xe0 + c / 4096, 0x80 + c / 64 % 64, 0x80 + c % 64]
   else [0xf0 + c / 262144, 0x80 + c / 4096 % 64, 0x80 + c / 64 % 64, 0x80 + c % 64]).map
    (BitVec.ofNat 8)

end Keramics.Spec.Utf8
