import Verif.Base.R

/-!
# Specification: sparse bundles

A sparse bundle is a directory. Its media is stored in bands of equal size, each a file in the directory "bands" that is named by the number of the band in
hexadecimal. Bands, and the ends of bands, that are not stored are zeros.
-/

namespace Keramics.Spec.SparseBundle

/-- The digit of a number less than 16. -/
def digit (n : Nat) : Char := "0123456789abcdef".toList.getD n '0'

/-- A number in hexadecimal. -/
def hexName (n : Nat) : List Char := if n < 16 then [digit n] else hexName (n / 16) ++ [digit (n % 16)]

/-- The files of a directory, by the components of their path. -/
abbrev Files := List (List Char) → Option (List Byte)

/-- A band, if it is stored. -/
def band (files : Files) (n : Nat) : Option (List Byte) := files ["bands".toList, hexName n]

/-- The byte of the media at a position. -/
def byteAt (files : Files) (bandSize x : Nat) : Byte := ((band files (x / bandSize)).getD []).getD (x % bandSize) 0#8

/-- The media. -/
def contents (files : Files) (bandSize size : Nat) : List Byte := (List.range size).map (byteAt files bandSize)

/-- Every byte of the media is stored. -/
def Stored (files : Files) (bandSize size : Nat) : Prop :=
  ∀ x, x < size → ∃ file, band files (x / bandSize) = some file ∧ x % bandSize < file.length

end Keramics.Spec.SparseBundle
