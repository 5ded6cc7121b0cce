import Verif.Model.Huffman
import Verif.Model.Lz

/-!
# keramics-compression/src/deflate.rs

The bitstream's `data` and `data_size` never change and are passed along. Debug output is not modelled.
-/

namespace Keramics.Deflate

/-- deflate.rs:62-77 `DeflateBitstream`: `data_offset`, `bits` and `number_of_bits`. -/
structure Bs where
  off : Nat
  bits : Nat
  n : Nat
deriving Repr, DecidableEq

/-- deflate.rs:128-137 `read_data`; past the end of the data the bits are 0. Every turn adds 8 bits, so
`need` turns suffice. -/
def readData (data : List Byte) (need : Nat) : Nat → Bs → R Bs
  | fuel, s =>
    if s.n < need then match fuel with
      | 0 => .panic
      | fuel + 1 =>
        if s.off < data.length then do
          let b ← R.get data s.off
          R.check (s.n < 32)
          readData data need fuel ⟨s.off + 1, s.bits ||| ((b.toNat <<< s.n) % 2 ^ 32), s.n + 8⟩
        else readData data need fuel { s with n := s.n + 8 }
    else .ok s

/-- deflate.rs:163-165 -/
def ensure (data : List Byte) (size : Nat) (s : Bs) : R Bs :=
  if s.n < size then readData data size size s else .ok s

/-- deflate.rs:158-182: the loop of `get_value`; `value & !(0xffffffff << read_size)` keeps the lowest
`read_size` bits (`read_size` is at most 24, so the branch for 32 is dead). -/
def getLoop (data : List Byte) (k : Nat) : Nat → Nat → Nat → Bs → R (Nat × Bs)
  | fuel, bitOffset, value, s =>
    if bitOffset < k then match fuel with
      | 0 => .panic
      | fuel + 1 => do
        let size := if k - bitOffset > 24 then 24 else k - bitOffset
        let s ← ensure data size s
        let v := s.bits &&& (2 ^ size - 1)
        let n ← R.subU s.n size
        let s := ⟨s.off, s.bits >>> size, n⟩
        R.check (bitOffset < 32)
        let v := if bitOffset > 0 then (v <<< bitOffset) % 2 ^ 32 else v
        getLoop data k fuel (bitOffset + size) (value ||| v) s
    else .ok (value, s)

/-- deflate.rs:153-184 `get_value`. -/
def getValue (data : List Byte) (k : Nat) (s : Bs) : R (Nat × Bs) := getLoop data k k 0 0 s

/-- deflate.rs:187-207 `skip_bits`: as `get_value`, the value dropped. -/
def skipBits (data : List Byte) (k : Nat) (s : Bs) : R Bs := do
  let (_, s) ← getValue data k s
  pure s

/-- deflate.rs:94-124 `copy_bytes`. -/
def copyBytes (data : List Byte) (size : Nat) (buf : List Byte) (o : Nat) (s : Bs) : R (List Byte × Bs) := do
  let end_ := s.off + size
  let outEnd := o + size
  R.require (end_ ≤ data.length)
  R.require (outEnd ≤ buf.length)
  let bytes ← R.slice data s.off end_
  let buf ← R.splice buf o outEnd bytes
  pure (buf, ⟨end_, 0, 0⟩)

/-- deflate.rs:34-36 -/
def sequence : List Nat := [16, 17, 18, 0, 8, 7, 9, 6, 10, 5, 11, 4, 12, 3, 13, 2, 14, 1, 15]

/-- deflate.rs:39-42 -/
def lengthBases : List Nat :=
  [3, 4, 5, 6, 7, 8, 9, 10, 11, 13, 15, 17, 19, 23, 27, 31, 35, 43, 51, 59, 67, 83, 99, 115, 131,
   163, 195, 227, 258]

/-- deflate.rs:45-47 -/
def lengthExtras : List Nat :=
  [0, 0, 0, 0, 0, 0, 0, 0, 1, 1, 1, 1, 2, 2, 2, 2, 3, 3, 3, 3, 4, 4, 4, 4, 5, 5, 5, 5, 0]

/-- deflate.rs:50-53 -/
def distanceBases : List Nat :=
  [1, 2, 3, 4, 5, 7, 9, 13, 17, 25, 33, 49, 65, 97, 129, 193, 257, 385, 513, 769, 1025, 1537,
   2049, 3073, 4097, 6145, 8193, 12289, 16385, 24577]

/-- deflate.rs:56-59 -/
def distanceExtras : List Nat :=
  [0, 0, 0, 0, 1, 1, 2, 2, 3, 3, 4, 4, 5, 5, 6, 6, 7, 7, 8, 8, 9, 9, 10, 10, 11, 11, 12, 12, 13, 13]

/-- The bit source the Huffman trees read from. -/
def getBit (data : List Byte) (s : Bs) : R (Nat × Bs) := getValue data 1 s

/-- deflate.rs:333-338: the sizes of the code-size codes. -/
def readCodeSizes (data : List Byte) : List Nat → List Byte → Bs → R (List Byte × Bs)
  | [], sizes, s => .ok (sizes, s)
  | i :: is, sizes, s => do
    let (v, s) ← getValue data 3 s
    let index ← R.get sequence i
    let sizes ← R.set sizes index (BitVec.ofNat 8 v)
    readCodeSizes data is sizes s

/-- deflate.rs:339-343 -/
def clearCodeSizes : List Nat → List Byte → R (List Byte)
  | [], sizes => .ok sizes
  | i :: is, sizes => do
    let index ← R.get sequence i
    let sizes ← R.set sizes index 0#8
    clearCodeSizes is sizes

/-- deflate.rs:390-395 -/
def fill (size : Byte) : Nat → List Byte → Nat → R (List Byte × Nat)
  | 0, sizes, i => .ok (sizes, i)
  | n + 1, sizes, i => do
    let sizes ← R.set sizes i size
    fill size n sizes (i + 1)

/-- deflate.rs:372-376: the size to repeat. -/
def repeatSize (sizes : List Byte) (i symbol : Nat) : R Byte :=
  if symbol = 16 then R.get sizes (i - 1) else .ok 0#8

/-- deflate.rs:377-383: how often to repeat it. -/
def repeatTimes (data : List Byte) (symbol : Nat) (s : Bs) : R (Nat × Bs) :=
  if symbol = 16 then do
    let (v, s) ← getValue data 2 s
    pure (v + 3, s)
  else if symbol = 17 then do
    let (v, s) ← getValue data 3 s
    pure (v + 3, s)
  else do
    let (v, s) ← getValue data 7 s
    pure (v + 11, s)

/-- deflate.rs:350-396: every turn sets at least one size, so `total` turns suffice. -/
def readSizes (data : List Byte) (t : Huffman.Tree) (total : Nat) : Nat → List Byte → Nat → Bs → R (List Byte × Bs)
  | fuel, sizes, i, s =>
    if i < total then match fuel with
      | 0 => .panic
      | fuel + 1 => do
        let (symbol, s) ← Huffman.decodeSymbol (getBit data) t s
        if symbol < 16 then do
          let sizes ← R.set sizes i (BitVec.ofNat 8 symbol)
          readSizes data t total fuel sizes (i + 1) s
        else do
          R.require (¬ (i = 0 ∧ symbol = 16))
          R.require (symbol ≤ 18)
          let size ← repeatSize sizes i symbol
          let (times, s) ← repeatTimes data symbol s
          R.require (i + times ≤ total)
          let (sizes, i) ← fill size times sizes i
          readSizes data t total fuel sizes i s
    else .ok (sizes, s)

/-- deflate.rs:281-406 `build_dynamic_huffman_trees`, with the trees created at 500-501. -/
def dynamicTrees (data : List Byte) (s : Bs) : R (Huffman.Tree × Huffman.Tree × Bs) := do
  let sizes := List.replicate 316 0#8
  let (v, s) ← getValue data 14 s
  let literals := (v &&& 0x1f) + 257
  R.require (literals ≤ 286)
  let v := v >>> 5
  let distances := (v &&& 0x1f) + 1
  R.require (distances ≤ 30)
  let v := v >>> 5
  let codes := v + 4
  let (sizes, s) ← readCodeSizes data (List.range codes) sizes s
  let sizes ← clearCodeSizes (List.range' codes (19 - codes)) sizes
  let t ← Huffman.build (Huffman.new 19 15) (← R.slice sizes 0 19)
  let total := literals + distances
  let (sizes, s) ← readSizes data t total total sizes 0 s
  R.require ((← R.get sizes 256) ≠ 0#8)
  let lit ← Huffman.build (Huffman.new 288 15) (← R.slice sizes 0 literals)
  let dist ← Huffman.build (Huffman.new 30 15) (← R.slice sizes literals total)
  pure (lit, dist, s)

/-- deflate.rs:410-424 -/
def fixedSizes : List Byte :=
  (List.range 318).map fun symbol =>
    if symbol < 144 then 8#8 else if symbol < 256 then 9#8 else if symbol < 280 then 7#8
    else if symbol < 288 then 8#8 else 5#8

/-- deflate.rs:409-432 `build_fixed_huffman_trees`. The context keeps the trees once built; the model
builds them for every block, which gives the same trees. -/
def fixedTrees : R (Huffman.Tree × Huffman.Tree) := do
  let lit ← Huffman.build (Huffman.new 288 15) (← R.slice fixedSizes 0 288)
  let dist ← Huffman.build (Huffman.new 30 15) (← R.slice fixedSizes 288 318)
  pure (lit, dist)

/-- deflate.rs:548-626: the loop of `decompress_huffmann_encoded_block`. Every turn but the last
produces output, so the room left in the buffer plus 1 turns suffice. -/
def huffBlock (data : List Byte) (lit dist : Huffman.Tree) : Nat → Bs → List Byte → Nat → R (Bs × List Byte × Nat)
  | 0, _, _, _ => .panic
  | fuel + 1, s, buf, o => do
    let (symbol, s) ← Huffman.decodeSymbol (getBit data) lit s
    if symbol = 256 then pure (s, buf, o)
    else if symbol < 256 then do
      R.require (o < buf.length)
      let buf ← R.set buf o (BitVec.ofNat 8 symbol)
      huffBlock data lit dist fuel s buf (o + 1)
    else if symbol < 286 then do
      let symbol := symbol - 257
      let extra ← R.get lengthExtras symbol
      let (e, s) ← getValue data extra s
      let size := (← R.get lengthBases symbol) + e
      let (symbol, s) ← Huffman.decodeSymbol (getBit data) dist s
      let extra ← R.get distanceExtras symbol
      let (e, s) ← getValue data extra s
      let distance := (← R.get distanceBases symbol) + e
      R.require (distance ≤ o)
      R.require (size ≤ (← R.subU buf.length o))
      let buf ← Lz.copyMatch size buf o (o - distance)
      huffBlock data lit dist fuel s buf (o + size)
    else .err

/-- deflate.rs:461-465: skip to the next byte. -/
def align (data : List Byte) (s : Bs) : R Bs :=
  if s.n &&& 0x07 > 0 then skipBits data (s.n &&& 0x07) s else .ok s

/-- deflate.rs:459-485: a stored block. -/
def storedBlock (data : List Byte) (s : Bs) (buf : List Byte) (o : Nat) : R (Bs × List Byte × Nat) := do
  let s ← align data s
  let (v, s) ← getValue data 32 s
  let size := v &&& 0xffff
  let copy := (v >>> 16) ^^^ 0xffff
  R.require (size = copy)
  if size > 0 then do
    let (buf, s) ← copyBytes data size buf o s
    pure (s, buf, o + size)
  else pure (s, buf, o)

/-- deflate.rs:458-520: the body of a block of a type. -/
def blockBody (data : List Byte) (type : Nat) (s : Bs) (buf : List Byte) (o : Nat) : R (Bs × List Byte × Nat) :=
  if type = 0 then storedBlock data s buf o
  else if type = 1 then do
    let (lit, dist) ← fixedTrees
    huffBlock data lit dist (buf.length - o + 1) s buf o
  else if type = 2 then do
    let (lit, dist, s) ← dynamicTrees data s
    huffBlock data lit dist (buf.length - o + 1) s buf o
  else .err

/-- deflate.rs:455-523: one block; also tells whether it is the last. -/
def block (data : List Byte) (s : Bs) (buf : List Byte) (o : Nat) : R (Bool × Bs × List Byte × Nat) := do
  let (v, s) ← getValue data 3 s
  let (s, buf, o) ← blockBody data (v >>> 1) s buf o
  pure (v &&& 1 ≠ 0, s, buf, o)

/-- deflate.rs:454-524: the loop over the blocks; every block takes at least 3 bits. -/
def blocks (data : List Byte) : Nat → Bs → List Byte → Nat → R (Bs × List Byte × Nat)
  | fuel, s, buf, o =>
    if s.off < data.length then match fuel with
      | 0 => .panic
      | fuel + 1 => do
        let (last, s, buf, o) ← block data s buf o
        if last then pure (s, buf, o) else blocks data fuel s buf o
    else .ok (s, buf, o)

/-- deflate.rs:446-528 `decompress_bitstream` from a byte offset: the bitstream, the buffer and
`uncompressed_data_size`. -/
def decompressBitstream (data : List Byte) (start : Nat) (buf : List Byte) : R (Bs × List Byte × Nat) :=
  blocks data (8 * data.length + 1) ⟨start, 0, 0⟩ buf 0

/-- deflate.rs:435-443 `decompress`: the buffer and `uncompressed_data_size`. -/
def decompress (data buf : List Byte) : R (List Byte × Nat) := do
  let (_, buf, o) ← decompressBitstream data 0 buf
  pure (buf, o)

end Keramics.Deflate
