import Verif.Base.R
import Verif.Spec.Bwt
import Verif.Spec.Crc32
import Verif.Spec.Huffman

/-!
# Specification: the bzip2 format

A stream as a compressor writes it: its header, its blocks, the end of the stream. Nothing here refers to the decoder. The transform of a block and its runs
are in `Verif.Spec.Bwt`, canonical codes in `Verif.Spec.Huffman`, the checksum in `Verif.Spec.Crc32`.
-/

namespace Keramics.Spec.Bzip2
open Keramics.Spec.Huffman Keramics.Spec.Bwt

/-- The bits of bytes, most significant bit first. -/
def byteBits (data : List Byte) : List Bool := data.flatMap fun b => bits 8 b.toNat

/-- Move-to-front: the positions of values in a list, where every value moves to the front of the list after it was looked up. -/
def mtf {α : Type} [DecidableEq α] : List α → List α → List Nat
  | _, [] => []
  | stack, x :: xs => stack.idxOf x :: mtf (x :: stack.erase x) xs

/-- A positive number in bijective base 2, least significant digit first, with digits 0 and 1 for 1 and 2; nothing for zero. -/
def digits (n : Nat) : List Nat :=
  if h : n = 0 then [] else if n % 2 = 1 then 0 :: digits ((n - 1) / 2) else 1 :: digits ((n - 2) / 2)
termination_by n

/-- The symbols of move-to-front positions, after `n` zeros: runs of zeros are numbers in bijective base 2, other positions are increased by 1. -/
def symbolsAfter : Nat → List Nat → List Nat
  | n, [] => digits n
  | n, 0 :: rest => symbolsAfter (n + 1) rest
  | n, (k + 1) :: rest => digits n ++ (k + 2) :: symbolsAfter 0 rest

/-- The bytes that are marked as used, in order. -/
def usedBytes (used : Nat → Bool) : List Byte := ((List.range 256).filter used).map (BitVec.ofNat 8)

/-- The symbols of a transformed block, with the one that ends it. -/
def symbolsOf (used : Nat → Bool) (last : List Byte) : List Nat :=
  symbolsAfter 0 (mtf (usedBytes used) last) ++ [(usedBytes used).length + 1]

/-- Whether one of 16 bytes is used. -/
def rowUsed (used : Nat → Bool) (i : Nat) : Bool := (List.range 16).any fun j => used (16 * i + j)

/-- The map of used bytes: which rows of 16 have any, and the map of each of these rows. -/
def mapBits (used : Nat → Bool) : List Bool :=
  (List.range 16).map (rowUsed used) ++ ((List.range 16).filter (rowUsed used)).flatMap fun i => (List.range 16).map fun j => used (16 * i + j)

/-- A number as so many ones and a zero. -/
def unary (n : Nat) : List Bool := List.replicate n true ++ [false]

/-- The selectors: their move-to-front positions in unary. -/
def selectorBits (trees : Nat) (selectors : List Nat) : List Bool := (mtf (List.range trees) selectors).flatMap unary

/-- A code length after another: 10 increases, 11 decreases, 0 ends. -/
def lengthBits (before length : Nat) : List Bool :=
  (List.replicate (length - before) [true, false]).flatten ++ (List.replicate (before - length) [true, true]).flatten ++ [false]

def lengthsBits : Nat → List Nat → List Bool
  | _, [] => []
  | before, l :: ls => lengthBits before l ++ lengthsBits l ls

/-- The code lengths of a tree, after the number they start from. -/
def treeBits (t : Nat × List Nat) : List Bool := bits 5 t.1 ++ lengthsBits t.1 t.2

/-- The symbols from an index on, where 50 at a time are written with the code of the next selector. -/
def codedBits (trees : List (Nat × List Nat)) (selectors : List Nat) : Nat → List Nat → List Bool
  | _, [] => []
  | index, symbol :: rest => codeBits (trees.getD (selectors.getD (index / 50) 0) (0, [])).2 symbol ++ codedBits trees selectors (index + 1) rest

/-- What is written for a block: the checksum of its bytes, the origin of the transform, the bytes that are used, the trees as start and code lengths, the
selectors and the symbols. -/
structure Block where
  checksum : Nat
  origin : Nat
  used : Nat → Bool
  trees : List (Nat × List Nat)
  selectors : List Nat
  symbols : List Nat

def Block.tablesBits (b : Block) : List Bool :=
  mapBits b.used ++ bits 3 b.trees.length ++ bits 15 b.selectors.length ++ selectorBits b.trees.length b.selectors

def Block.bits (b : Block) : List Bool :=
  Huffman.bits 48 0x314159265359 ++ Huffman.bits 32 b.checksum ++ [false] ++ Huffman.bits 24 b.origin ++ b.tablesBits ++
    b.trees.flatMap treeBits ++ codedBits b.trees b.selectors 0 b.symbols

/-- The end of a stream, with the checksum of the whole stream. -/
def endBits (checksum : Nat) : List Bool := bits 48 0x177245385090 ++ bits 32 checksum

/-- A complete prefix code for so many symbols, of code lengths from 1 to `m`. -/
def Complete (m symbols : Nat) (lens : List Nat) : Prop :=
  lens.length = symbols ∧ (∀ l ∈ lens, 1 ≤ l ∧ l ≤ m) ∧ (lens.map fun l => 2 ^ (m - l)).sum = 2 ^ m

/-- The tables of a block, but for the code lengths: the format has from 2 to 6 trees, a selector for every 50 symbols, and at most 18002 of these. -/
structure Block.Tables (b : Block) : Prop where
  checksum : b.checksum < 2 ^ 32
  origin : b.origin < 900000
  trees : 2 ≤ b.trees.length ∧ b.trees.length ≤ 6
  selectors : b.symbols.length ≤ 50 * b.selectors.length ∧ b.selectors.length ≤ 18002
  selector : ∀ t ∈ b.selectors, t < b.trees.length

/-- The trees of a block have a code for every symbol, of at most `m` bits. -/
def Block.Trees (m : Nat) (b : Block) : Prop :=
  ∀ t ∈ b.trees, t.1 ≤ m ∧ Complete m ((usedBytes b.used).length + 2) t.2

/-- The block is one that stands for the bytes of these runs. -/
def Block.Encodes (b : Block) (runs : List (Byte × Nat)) : Prop :=
  ValidRuns runs ∧ (∀ c ∈ stored runs, b.used c.toNat = true) ∧
    ∃ last, IsTransform (stored runs) last b.origin ∧ b.symbols = symbolsOf b.used last

/-- The checksum of bytes: CRC-32 with the most significant bit first. -/
def crc (bytes : List Byte) : Nat := (crc32 0x04c11db7#32 0#32 bytes).toNat

/-- The checksum of a stream from those of its blocks: rotate to the left by 1 and add without carry. -/
def combine (checksums : List Nat) : Nat :=
  checksums.foldl (fun c x => ((2 * c) % 2 ^ 32 + c / 2 ^ 31) ^^^ x) 0

/-- A stream: `BZh`, the level, the blocks and the end, and less than a byte of padding. -/
structure IsStream (data : List Byte) (blocks : List Block) (checksum : Nat) : Prop where
  header : ∃ level, 1 ≤ level ∧ level ≤ 9 ∧ data.take 4 = [0x42#8, 0x5a#8, 0x68#8, BitVec.ofNat 8 (0x30 + level)]
  body : ∃ padding : List Bool, padding.length < 8 ∧ byteBits (data.drop 4) = blocks.flatMap Block.bits ++ endBits checksum ++ padding

end Keramics.Spec.Bzip2
