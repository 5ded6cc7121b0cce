import Verif.Model.Bzip2Bwt
import Verif.Model.Crc32
import Verif.Model.Huffman

/-!
# Model: keramics-compression/src/bzip2.rs

The bit stream, the stream and block headers, the symbol map, the selectors, the Huffman trees, the block data and the decompression. The reverse
Burrows-Wheeler transform is in `Verif.Model.Bzip2Bwt`. Mediator debug output is left out. The data of the bit stream does not change: it is an argument.
-/

namespace Keramics.Bzip2

/-- `Bzip2Bitstream` without the data, bzip2.rs:35-64: `bits`, `number_of_bits` and `data_offset`. -/
structure Bs where
  bits : Nat
  n : Nat
  off : Nat
deriving DecidableEq, Repr

/-- One iteration of the loop of `read_data`, bzip2.rs:70-77. -/
def readByte (data : List Byte) (s : Bs) : Bs :=
  match data[s.off]? with
  | some b => ⟨(s.bits <<< 8) % 2 ^ 32 ||| b.toNat, s.n + 8, s.off + 1⟩
  | none => ⟨(s.bits <<< 8) % 2 ^ 32, s.n + 8, s.off⟩

/-- `read_data`, bzip2.rs:67-79. The loop ends after at most `want` iterations, since each adds 8 bits. -/
def readData (data : List Byte) (want : Nat) : Nat → Bs → Bs
  | 0, s => s
  | fuel + 1, s => if want > s.n then readData data want fuel (readByte data s) else s

/-- The bits that stay and the value that is taken, bzip2.rs:98-107; `n` is the number of bits that stay. -/
def split (bits n : Nat) : R (Nat × Nat) :=
  if n = 0 then .ok (0, bits)
  else do
    let shift ← R.subU 32 n
    return (bits &&& (0xffffffff >>> shift), bits >>> n)

/-- One iteration of the loop of `get_value`, bzip2.rs:90-112: `offset` is `bit_offset`, `size` is `read_size`. -/
def getStep (data : List Byte) (size offset value : Nat) (s : Bs) : R (Nat × Bs) := do
  let s := if s.n < size then readData data size size s else s
  let n ← R.subU s.n size
  let (bits, v) ← split s.bits n
  let value := if offset > 0 then (value <<< size) % 2 ^ 32 else value
  return (value ||| v, ⟨bits, n, s.off⟩)

/-- The loop of `get_value`, bzip2.rs:89-113. Every iteration reads at least a bit. -/
def getLoop (data : List Byte) (want : Nat) : Nat → Nat → Nat → Bs → R (Nat × Bs)
  | 0, _, value, s => .ok (value, s)
  | fuel + 1, offset, value, s =>
    if offset < want then do
      let size := min (want - offset) 24
      let (value, s) ← getStep data size offset value s
      getLoop data want fuel (offset + size) value s
    else .ok (value, s)

/-- `get_value`, bzip2.rs:84-115. -/
def getValue (data : List Byte) (want : Nat) (s : Bs) : R (Nat × Bs) := getLoop data want want 0 0 s

/-- `Bzip2StreamHeader::read_data`, bzip2.rs:161-181. -/
def readStreamHeader (data : List Byte) : R Unit := do
  R.require (4 ≤ data.length)
  let signature ← R.slice data 0 2
  R.require (signature = [0x42#8, 0x5a#8])
  let level ← R.get data 3
  R.require (0x31 ≤ level.toNat ∧ level.toNat ≤ 0x39)

/-- `Bzip2BlockHeader`, without the randomized flag that nothing reads, bzip2.rs:185-195. -/
structure Header where
  signature : Nat
  checksum : Nat
  origin : Nat
deriving DecidableEq, Repr

/-- The fields after the signature, bzip2.rs:216-229. -/
def readHeaderRest (data : List Byte) (signature : Nat) (s : Bs) : R (Header × Bs) :=
  if signature = 0x177245385090 then do
    let (checksum, s) ← getValue data 32 s
    return (⟨signature, checksum, 0⟩, s)
  else if signature = 0x314159265359 then do
    let (checksum, s) ← getValue data 32 s
    let (_, s) ← getValue data 1 s
    let (origin, s) ← getValue data 24 s
    return (⟨signature, checksum, origin⟩, s)
  else .err

/-- `Bzip2BlockHeader::read_from_bitstream`, bzip2.rs:210-247. -/
def readHeader (data : List Byte) (s : Bs) : R (Header × Bs) := do
  let (high, s) ← getValue data 24 s
  let (low, s) ← getValue data 24 s
  readHeaderRest data ((high <<< 24) ||| low) s

/-- The loop over the bits of a level 2 value, bzip2.rs:655-667: the stack and the symbol index. -/
def level2 (value i : Nat) : List Nat → List Byte → Nat → R (List Byte × Nat)
  | [], stack, index => .ok (stack, index)
  | j :: js, stack, index =>
    if value &&& (0x8000 >>> j) ≠ 0 then do
      R.require (index ≤ 256)
      let stack ← R.set stack index (BitVec.ofNat 8 (16 * i + j))
      level2 value i js stack (index + 1)
    else level2 value i js stack index

/-- The loop over the bits of the level 1 value, bzip2.rs:644-670. -/
def level1 (data : List Byte) (value : Nat) : List Nat → List Byte → Nat → Bs → R (List Byte × Nat × Bs)
  | [], stack, index, s => .ok (stack, index, s)
  | i :: is, stack, index, s =>
    if value &&& (0x8000 >>> i) ≠ 0 then do
      let (v, s) ← getValue data 16 s
      let (stack, index) ← level2 v i (List.range 16) stack index
      level1 data value is stack index s
    else level1 data value is stack index s

/-- `read_symbol_stack`, bzip2.rs:628-683: the stack, the number of symbols and the bit stream. -/
def readSymbolStack (data : List Byte) (stack : List Byte) (s : Bs) : R (List Byte × Nat × Bs) := do
  let (value, s) ← getValue data 16 s
  let (stack, index, s) ← level1 data value (List.range 16) stack 0 s
  return (stack, index + 2, s)

/-- The loop that moves the values before an index up, bzip2.rs:600-602 and 467-469. -/
def shiftUp : Nat → List Byte → R (List Byte)
  | 0, stack => .ok stack
  | i + 1, stack => do
    let v ← R.get stack i
    let stack ← R.set stack (i + 1) v
    shiftUp i stack

/-- The inverse move-to-front of an index: the value and the stack, bzip2.rs:596-603 and 463-470. -/
def moveToFront (stack : List Byte) (index : Nat) : R (Byte × List Byte) := do
  let v ← R.get stack index
  let stack ← shiftUp index stack
  let stack ← R.set stack 0 v
  return (v, stack)

/-- The loop that counts one bits, bzip2.rs:582-588; the number is how many may follow. -/
def countOnes (data : List Byte) : Nat → Nat → Bs → R (Nat × Bs)
  | 0, index, s => .ok (index, s)
  | left + 1, index, s => do
    let (b, s) ← getValue data 1 s
    if b = 0 then .ok (index, s) else countOnes data left (index + 1) s

/-- The loop of `read_selectors`, bzip2.rs:579-606; the number is that of the selectors that follow, `index` that of those read. -/
def selectorLoop (data : List Byte) (trees : Nat) : Nat → Nat → List Byte → List Byte → Bs → R (List Byte × Bs)
  | 0, _, _, selectors, s => .ok (selectors, s)
  | left + 1, index, stack, selectors, s => do
    let (tree, s) ← countOnes data trees 0 s
    R.require (tree < trees)
    let (v, stack) ← moveToFront stack tree
    let selectors ← R.set selectors index v
    selectorLoop data trees left (index + 1) stack selectors s

/-- `read_selectors`, bzip2.rs:573-625. -/
def readSelectors (data : List Byte) (selectors : List Byte) (number trees : Nat) (s : Bs) : R (List Byte × Bs) :=
  selectorLoop data trees number 0 [0#8, 1#8, 2#8, 3#8, 4#8, 5#8, 6#8] selectors s

/-- The loop that reads a code size, bzip2.rs:529-539. Each iteration reads a bit that is set, and there are no more of these than bits in the data. -/
def sizeLoop (data : List Byte) : Nat → Nat → Bs → R (Nat × Bs)
  | 0, _, _ => .panic
  | fuel + 1, size, s =>
    if size < 20 then do
      let (b, s) ← getValue data 1 s
      if b = 0 then .ok (size, s)
      else do
        let (b, s) ← getValue data 1 s
        if b = 0 then sizeLoop data fuel (size + 1) s
        else do
          let size ← R.subU size 1
          sizeLoop data fuel size s
    else .ok (size, s)

/-- Reads one code size, bzip2.rs:529-545. -/
def readSize (data : List Byte) (size : Nat) (s : Bs) : R (Nat × Bs) := do
  let (size, s) ← sizeLoop data (8 * data.length + 33) size s
  R.require (size < 20)
  return (size, s)

/-- The loop over the symbols, bzip2.rs:528-549: the code sizes, the largest and the bit stream. The array of code sizes holds 258. -/
def sizesLoop (data : List Byte) : Nat → Nat → Nat → List Byte → Bs → R (List Byte × Nat × Bs)
  | 0, _, largest, sizes, s => .ok (sizes, largest, s)
  | left + 1, size, largest, sizes, s => do
    let (size, s) ← readSize data size s
    R.check (sizes.length < 258)
    sizesLoop data left size (max size largest) (sizes ++ [BitVec.ofNat 8 size]) s

/-- The loop that subtracts the parts of the codes, bzip2.rs:558-561. -/
def checkLoop (largest : Nat) : List Byte → Nat → R Nat
  | [], value => .ok value
  | size :: sizes, value => do
    let d ← R.subU largest size.toNat
    R.check (d < 32)
    let value ← R.subU value (2 ^ d)
    checkLoop largest sizes value

/-- `read_huffman_tree`, bzip2.rs:518-570, on a new tree, bzip2.rs:344. -/
def readTree (data : List Byte) (number : Nat) (s : Bs) : R (Huffman.Tree × Bs) := do
  let (size, s) ← getValue data 5 s
  let (sizes, largest, s) ← sizesLoop data number size size [] s
  R.require (largest ≤ 32)
  R.check (largest < 32)
  let value ← checkLoop largest sizes (2 ^ largest)
  R.require (value = 0)
  let tree ← Huffman.build (Huffman.new number 20) sizes
  return (tree, s)

/-- The loop that reads the trees, bzip2.rs:343-349. -/
def readTrees (data : List Byte) (number : Nat) : Nat → List Huffman.Tree → Bs → R (List Huffman.Tree × Bs)
  | 0, trees, s => .ok (trees, s)
  | left + 1, trees, s => do
    let (tree, s) ← readTree data number s
    readTrees data number left (trees ++ [tree]) s

/-- The variables of `read_block_data`, bzip2.rs:407-412: the block data, its offset, `number_of_run_length_symbols`, `run_length_value` and the symbol
stack. -/
structure Block where
  data : List Byte
  offset : Nat
  runs : Nat
  value : Nat
  stack : List Byte
deriving DecidableEq, Repr

/-- The run of the byte at the front of the stack, bzip2.rs:427-453. -/
def flush (b : Block) : R Block := do
  R.check (b.runs < 64)
  let length ← R.subU ((2 ^ b.runs) ||| b.value) 1
  let left ← R.subU blockSize b.offset
  R.require (length ≤ left)
  let front ← R.get b.stack 0
  let (data, offset) ← repeatByte length front b.data b.offset
  return { b with data := data, offset := offset, runs := 0, value := 0 }

/-- bzip2.rs:426-453: a symbol that is not part of a run ends the run. -/
def endRun (b : Block) (symbol : Nat) : R Block := if b.runs ≠ 0 ∧ symbol > 1 then flush b else .ok b

/-- What a symbol other than the last does, bzip2.rs:461-495. -/
def put (last : Nat) (b : Block) (symbol : Nat) : R Block :=
  if symbol = 0 ∨ symbol = 1 then do
    R.check (b.runs < 64)
    return { b with value := b.value ||| (symbol <<< b.runs) % 2 ^ 64, runs := b.runs + 1 }
  else if symbol < last then do
    let (v, stack) ← moveToFront b.stack (symbol - 1)
    R.require (b.offset < blockSize)
    let data ← R.set b.data b.offset v
    return { b with data := data, offset := b.offset + 1, stack := stack }
  else .err

/-- The tree for the symbol at an index, bzip2.rs:498-509. -/
def nextTree (selectors : List Byte) (number index tree : Nat) : R Nat :=
  if index % 50 = 0 then do
    R.require (index / 50 ≤ number)
    let v ← R.get selectors (index / 50)
    return v.toNat
  else .ok tree

/-- The loop of `read_block_data`, bzip2.rs:417-510. It ends before symbol `50 * (number + 1)`, for which there is no selector. -/
def blockLoop (data : List Byte) (trees : List Huffman.Tree) (count : Nat) (selectors : List Byte) (number last : Nat) :
    Nat → Nat → Nat → Block → Bs → R (Block × Bs)
  | 0, _, _, _, _ => .panic
  | fuel + 1, index, tree, b, s => do
    R.require (tree < count)
    let t ← R.get trees tree
    let (symbol, s) ← Huffman.decodeSymbol (getValue data 1) t s
    let b ← endRun b symbol
    if symbol = last then .ok (b, s)
    else do
      let b ← put last b symbol
      let tree ← nextTree selectors number (index + 1) tree
      blockLoop data trees count selectors number last fuel (index + 1) tree b s

/-- `read_block_data`, bzip2.rs:395-515: the block data, its size, the symbol stack and the bit stream. -/
def readBlock (data : List Byte) (trees : List Huffman.Tree) (count : Nat) (selectors : List Byte) (number : Nat) (stack : List Byte) (symbols : Nat)
    (block : List Byte) (s : Bs) : R (Block × Bs) := do
  let last ← R.subU symbols 1
  let tree ← R.get selectors 0
  blockLoop data trees count selectors number last (50 * (number + 1)) 0 tree.toNat ⟨block, 0, 0, 0, stack⟩ s

/-- The variables of `decompress_bitstream` that stay from block to block, bzip2.rs:311-318. -/
structure State where
  block : List Byte
  selectors : List Byte
  stack : List Byte
  out : List Byte
  offset : Nat
  checksum : Nat
deriving DecidableEq, Repr

/-- A block after its header, bzip2.rs:323-374. -/
def decodeBlock (data : List Byte) (origin : Nat) (st : State) (s : Bs) : R (State × Bs) := do
  R.require (origin < blockSize)
  let (stack, symbols, s) ← readSymbolStack data st.stack s
  let (count, s) ← getValue data 3 s
  let (number, s) ← getValue data 15 s
  let (selectors, s) ← readSelectors data st.selectors number count s
  let (trees, s) ← readTrees data symbols count [] s
  let (b, s) ← readBlock data trees count selectors number stack symbols st.block s
  let (out, offset) ← reverse b.data b.offset origin st.out st.offset
  return ({ st with block := b.data, selectors := selectors, stack := b.stack, out := out, offset := offset }, s)

/-- The loop of `decompress_bitstream`, bzip2.rs:319-375. A header takes more bits than the buffer holds: every iteration reads a byte. -/
def blocksLoop (data : List Byte) : Nat → State → Bs → R State
  | 0, _, _ => .panic
  | fuel + 1, st, s =>
    if s.off < data.length then do
      let (h, s) ← readHeader data s
      let st := { st with checksum := h.checksum }
      if h.signature = 0x177245385090 then .ok st
      else do
        let (st, s) ← decodeBlock data h.origin st s
        blocksLoop data fuel st s
    else .ok st

/-- The checksum of the uncompressed data, bzip2.rs:376-378. -/
def checksumOf (bytes : List Byte) : R Nat := do
  let c ← (Crc32.Ctx.new 0x04c11db7#32 0#32).update bytes
  return c.finalize.1.toNat

/-- `decompress_bitstream`, bzip2.rs:305-392: the uncompressed data and `uncompressed_data_size`. -/
def decompressBits (data : List Byte) (out : List Byte) (s : Bs) : R (List Byte × Nat) := do
  let st ← blocksLoop data (data.length + 1) ⟨List.replicate blockSize 0#8, List.replicate 32769 0#8, List.replicate 256 0#8, out, 0, 0⟩ s
  let bytes ← R.slice st.out 0 st.offset
  let checksum ← checksumOf bytes
  R.require (st.checksum = checksum)
  return (st.out, st.offset)

/-- `decompress`, bzip2.rs:271-302. -/
def decompress (data out : List Byte) : R (List Byte × Nat) := do
  R.require (14 ≤ data.length)
  readStreamHeader data
  decompressBits data out ⟨0, 0, 4⟩

end Keramics.Bzip2
