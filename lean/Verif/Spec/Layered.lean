import Verif.Base.R

/-!
# Specification: layered images

Every byte of the media of an image comes from somewhere: a place in the file of the image, the same position of the
parent image, or it is zero.
-/

namespace Keramics.Spec

/-- Where a byte of the media is stored. -/
inductive Source where
  | file (offset : Nat)
  | parent
  | zero
deriving DecidableEq, Repr

/-- The byte at a position of the media. -/
def Source.byte (file parent : List Byte) (x : Nat) : Source → Byte
  | .file offset => file.getD offset 0#8
  | .parent => parent.getD x 0#8
  | .zero => 0#8

/-- The media, from the source of every position. -/
def layered (file parent : List Byte) (source : Nat → Source) (size : Nat) : List Byte :=
  (List.range size).map fun x => (source x).byte file parent x

/-- Everything is where it should be: inside of the file or of the parent. -/
def LayeredInside (file parent : List Byte) (source : Nat → Source) (size : Nat) : Prop :=
  ∀ x, x < size → match source x with
    | .file offset => offset < file.length
    | .parent => x < parent.length
    | .zero => True

end Keramics.Spec
