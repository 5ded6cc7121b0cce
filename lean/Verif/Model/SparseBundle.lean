import Verif.Model.Blocks

/-!
# Model: sparse bundles (.sparsebundle)

Debug output through the mediator is left out. The file resolver is a function from path components to the bytes of a file: a resolver that fails is not
modelled. The parser of the property list is a parameter: the model starts from what its getters return.
-/

namespace Keramics.SparseBundle

/-- What the getters of the property list return, sparsebundle/image.rs:128-184. -/
structure Info where
  version : Option String
  type : Option String
  bandSize : Option Int
  size : Option Int
deriving DecidableEq, Repr

/-- `SparseBundleImage`, sparsebundle/image.rs:25-41. -/
structure Image where
  blockSize : Nat
  mediaSize : Nat
deriving DecidableEq, Repr

/-- `match … { Some(v) => v, None => return Err }`. -/
def some? {α : Type} : Option α → R α
  | some v => .ok v
  | none => .err

/-- `read_info_plist` after parsing, sparsebundle/image.rs:128-196. An `i64` is an integer. -/
def openInfo (info : Info) : R Image := do
  R.require ((← some? info.version) = "6.0")
  R.require ((← some? info.type) = "com.apple.diskimage.sparsebundle")
  let bandSize ← some? info.bandSize
  R.require (¬ (bandSize ≤ 0 ∨ bandSize > 4294967295))
  let size ← some? info.size
  R.require (¬ size ≤ 0)
  return ⟨bandSize.toNat, size.toNat⟩

/-- The digits of `format!("{:x}", n)`, sparsebundle/image.rs:213, from the last: `core::fmt` writes them so into a buffer. -/
def fmtHex : Nat → List Char → List Char
  | n, acc =>
    let d := n % 16
    let c := if d < 10 then Char.ofNat (0x30 + d) else Char.ofNat (0x61 + (d - 10))
    if h : n / 16 = 0 then c :: acc else fmtHex (n / 16) (c :: acc)
termination_by n => n
decreasing_by omega

/-- The variables of `read_data_from_bands`, sparsebundle/image.rs:204-207: the number of the block, the relative offset in the range and its remainder. -/
structure Range where
  block : Nat
  relative : Nat
  remainder : Nat
deriving DecidableEq, Repr

/-- One iteration of `read_data_from_bands`, sparsebundle/image.rs:213-258. -/
def piece (files : List (List Char) → Option (List Byte)) (image : Image) (r : Range) (_current want : Nat) : R (List Byte × Range) := do
  let file ← some? (files ["bands".toList, fmtHex r.block []])
  let out := Blocks.readAt file r.relative (min want r.remainder)
  return (out, ⟨r.block + 1, 0, image.blockSize⟩)

/-- sparsebundle/image.rs:204-207. -/
def start (image : Image) (_ : Unit) (current : Nat) : Range :=
  let block := current / image.blockSize
  let relative := current - block * image.blockSize
  ⟨block, relative, image.blockSize - relative⟩

/-- The data stream of the media, sparsebundle/image.rs:264-309. -/
def stream (files : List (List Char) → Option (List Byte)) (image : Image) : Reader Unit :=
  Blocks.readerWith (piece files image) image.mediaSize (start image) fun _ => ()

end Keramics.SparseBundle
