import Verif.Spec.Formats
import Verif.Spec.HashTool

/-!
# Specification: the report of the hashes of a storage media image
-/

namespace Keramics.Spec

/-- The hexadecimal digits of bytes, in lower case. -/
def hexText (bytes : List Byte) : List Nat :=
  bytes.flatMap fun b => [b.toNat / 16, b.toNat % 16].map fun d => if d < 10 then 0x30 + d else 0x61 + (d - 10)

/-- The formats of storage media images. -/
def IsImage (f : Sigscan.Format) : Prop := f = .ewf ∨ f = .qcow ∨ f = .sparseImage ∨ f = .udif ∨ f = .vhd ∨ f = .vhdx

/-- The data is an image of one format: it has the bytes of that one and of no other. -/
def OnlyImage (data : List Byte) (f : Sigscan.Format) : Prop := IsImage f ∧ HasFormat data f ∧ ∀ g, IsImage g → HasFormat data g → g = f

/-- A hash of `n` bytes that an image has; zeros stand for none. -/
def storedHash (n : Nat) (hash : List Byte) : Option (List Byte) := if hash = List.replicate n 0#8 then none else some hash

/-- The lines: the MD5 of the media and the hashes that are stored in the image. -/
def hashReport (calculated : List Byte) (md5 sha1 : Option (List Byte)) : List (List Nat) :=
  [[], codePoints "Calculated MD5 hash\t: " ++ hexText calculated] ++
    (md5.map fun h => codePoints "Stored MD5 hash\t\t: " ++ hexText h).toList ++ (sha1.map fun h => codePoints "Stored SHA1 hash\t: " ++ hexText h).toList

end Keramics.Spec
