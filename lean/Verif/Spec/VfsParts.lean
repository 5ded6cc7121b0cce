import Verif.Spec.Formats
import Verif.Model.Vfs

/-!
# Specification: the names of partitions and of layers of images
-/

namespace Keramics.Spec

/-- The file systems that show the partitions of a volume system, or the layers of an image. -/
inductive PartsKind
  | apm | gpt | mbr | qcow | vhd | vhdx | ewf | sparseImage | udif
deriving DecidableEq, Repr

/-- The code points of a text. -/
def codePoints (text : String) : List Nat := text.toList.map Char.toNat

/-- What the names of the partitions or layers begin with. -/
def PartsKind.label : PartsKind → List Nat
  | .apm => codePoints "apm"
  | .gpt => codePoints "gpt"
  | .mbr => codePoints "mbr"
  | .qcow => codePoints "qcow"
  | .vhd => codePoints "vhd"
  | .vhdx => codePoints "vhdx"
  | .ewf => codePoints "ewf"
  | .sparseImage => codePoints "sparseimage"
  | .udif => codePoints "udif"

/-- The images that have one layer only. -/
def PartsKind.OneLayer (k : PartsKind) : Prop := k = .ewf ∨ k = .sparseImage ∨ k = .udif

/-- A decimal number: the number of its digits, all of which are digits. -/
def IsDecimal (text : List Nat) (n : Nat) : Prop :=
  text ≠ [] ∧ (∀ c ∈ text, 48 ≤ c ∧ c ≤ 57) ∧ text.foldl (fun v c => v * 10 + (c - 48)) 0 = n

/-- The name of the partition or layer with an index: the label and its number, from 1, in decimal without leading zeros. -/
def IsPartName (k : PartsKind) (i : Nat) (name : List Nat) : Prop :=
  ∃ digits, name = k.label ++ digits ∧ IsDecimal digits (i + 1) ∧ digits.head? ≠ some 48

end Keramics.Spec
