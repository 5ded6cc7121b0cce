import Verif.Base.Ints

/-!
# Specification: how ext inodes map the blocks of a file

After the ext2 and ext4 on-disk formats. A map from the blocks of a file is given as a function to the
block of the volume, `none` for a block that is not stored and reads as zeros.
-/

namespace Keramics.Spec.Ext

/-- Block `b` of a volume. -/
def block (volume : List Byte) (bs b : Nat) : List Byte := (volume.drop (b * bs)).take bs

/-! ## Extents -/

/-- An extent: `count` blocks of the file from `logical` on are the blocks of the volume from `start` on, or
are allocated but not written. -/
structure Extent where
  logical : Nat
  count : Nat
  start : Nat
  written : Bool
deriving DecidableEq, Repr

/-- An extent as it can be stored: 32-bit block of the file, 1 to 32768 blocks (32767 if not written), 48-bit
block of the volume, which is not block 0. -/
def Extent.Ok (e : Extent) : Prop :=
  e.logical < 2 ^ 32 ∧ 1 ≤ e.count ∧ (e.count ≤ if e.written then 32768 else 32767) ∧ 0 < e.start ∧ e.start < 2 ^ 48

/-- The 12 bytes of an extent; 32768 is added to the number of blocks if it is not written. -/
def Extent.bytes (e : Extent) : List Byte :=
  leBytes 4 e.logical ++ leBytes 2 (if e.written then e.count else e.count + 32768) ++ leBytes 2 (e.start / 2 ^ 32) ++
    leBytes 4 (e.start % 2 ^ 32)

/-- The 12 bytes of a header: signature, number of entries, maximum, depth, generation. -/
def header (entries maximum depth generation : Nat) : List Byte :=
  [0x0a#8, 0xf3#8] ++ leBytes 2 entries ++ leBytes 2 maximum ++ leBytes 2 depth ++ leBytes 4 generation

/-- The 12 bytes of an index entry: first block of the file, block of the node, unused. -/
def indexBytes (logical node unused : Nat) : List Byte :=
  leBytes 4 logical ++ leBytes 4 (node % 2 ^ 32) ++ leBytes 2 (node / 2 ^ 32) ++ leBytes 2 unused

/-- A sub node: first block of the file, block of the node, unused bytes, and the extents below it. -/
structure Child where
  logical : Nat
  node : Nat
  unused : Nat
  extents : List Extent

/-- `data` is a node of depth `depth` with the extents below it, in order. -/
def Stored (volume : List Byte) (bs : Nat) : Nat → List Byte → List Extent → Prop
  | 0, data, extents => ∃ maximum generation rest, extents.length < 2 ^ 16 ∧
      data = header extents.length maximum 0 generation ++ extents.flatMap Extent.bytes ++ rest
  | depth + 1, data, extents => ∃ (maximum generation : Nat) (rest : List Byte) (children : List Child), children.length < 2 ^ 16 ∧
      data = header children.length maximum (depth + 1) generation ++
        children.flatMap (fun c => indexBytes c.logical c.node c.unused) ++ rest ∧
      extents = children.flatMap Child.extents ∧
      ∀ c ∈ children, c.node < 2 ^ 48 ∧ (c.node + 1) * bs ≤ volume.length ∧ Stored volume bs depth (block volume bs c.node) c.extents

/-- The extents are in order, do not overlap and end at most at block `blocks`; `from_` is the end of the one
before. -/
def Ordered (blocks : Nat) : Nat → List Extent → Prop
  | from_, [] => from_ ≤ blocks
  | from_, e :: es => from_ ≤ e.logical ∧ Ordered blocks (e.logical + e.count) es

/-- The block of the volume of block `b` of the file. -/
def extentBlock (extents : List Extent) (b : Nat) : Option Nat :=
  (extents.find? fun e => e.logical ≤ b ∧ b < e.logical + e.count ∧ e.written).map fun e => e.start + (b - e.logical)

/-! ## Block numbers -/

/-- Number `i` of a table of 32-bit numbers. -/
def number (table : List Byte) (i : Nat) : Nat := leNat ((table.drop (4 * i)).take 4)

/-- The block of the volume of block `i` below a reference of the given number of indirections: 0 means not
stored, an indirect block is a table of `bs / 4` references. -/
def resolve (volume : List Byte) (bs : Nat) : Nat → Nat → Nat → Option Nat
  | 0, reference, _ => if reference = 0 then none else some reference
  | depth + 1, reference, i => if reference = 0 then none
      else resolve volume bs depth (number (block volume bs reference) (i / (bs / 4) ^ depth)) (i % (bs / 4) ^ depth)

/-- The block of the volume of block `b` of a file: 12 direct references, then one each with one, two and three
indirections. -/
def numberBlock (volume : List Byte) (bs : Nat) (inode : List Byte) (b : Nat) : Option Nat :=
  let p := bs / 4
  if b < 12 then resolve volume bs 0 (number inode b) 0
  else if b < 12 + p then resolve volume bs 1 (number inode 12) (b - 12)
  else if b < 12 + p + p ^ 2 then resolve volume bs 2 (number inode 13) (b - (12 + p))
  else if b < 12 + p + p ^ 2 + p ^ 3 then resolve volume bs 3 (number inode 14) (b - (12 + p + p ^ 2))
  else none

/-- All indirect blocks below a reference lie inside the volume. -/
def Inside (volume : List Byte) (bs : Nat) : Nat → Nat → Prop
  | 0, _ => True
  | depth + 1, reference => reference = 0 ∨ ((reference + 1) * bs ≤ volume.length ∧
      ∀ i, i < bs / 4 → Inside volume bs depth (number (block volume bs reference) i))

/-! ## Contents -/

/-- The contents of a file of `blocks` blocks and the given size. -/
def contents (volume : List Byte) (bs : Nat) (map : Nat → Option Nat) (blocks size : Nat) : List Byte :=
  ((List.range blocks).flatMap fun b => match map b with
    | some p => block volume bs p
    | none => List.replicate bs 0#8).take size

end Keramics.Spec.Ext
