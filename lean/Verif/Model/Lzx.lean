import Verif.Model.Deflate

/-!
# keramics-compression/src/lzx.rs

The bitstream's `data` and `data_size` never change and are passed along. Debug output is not
modelled. u32 values are `Nat` below 2^32; the casts between `i32` and `u32` are explicit.
-/

namespace Keramics.Lzx

/-- lzx.rs:29-34 `LZX_COMPRESSION_OFFSET_BASE`. -/
def offsetBase : List Int :=
  [-2, -1, 0, 1, 2, 4, 6, 10, 14, 22, 30, 46, 62, 94, 126, 190, 254, 382, 510, 766, 1022, 1534,
   2046, 3070, 4094, 6142, 8190, 12286, 16382, 24574, 32766, 49150, 65534, 98302, 131070, 196606,
   262142, 393214, 524286, 655358, 786430, 917502, 1048574, 1179646, 1310718, 1441790, 1572862,
   1703934, 1835006, 1966078]

/-- lzx.rs:37-40 `LZX_NUMBER_OF_FOOTER_BITS`. -/
def footerBits : List Nat :=
  [0, 0, 0, 0, 1, 1, 2, 2, 3, 3, 4, 4, 5, 5, 6, 6, 7, 7, 8, 8, 9, 9, 10, 10, 11, 11, 12, 12, 13,
   13, 14, 14, 15, 15, 16, 16, 17, 17, 17, 17, 17, 17, 17, 17, 17, 17, 17, 17, 17, 17]

/-- lzx.rs:43-58 `LzxBitstream`: `data_offset`, `bits` and `number_of_bits`. -/
structure Bs where
  off : Nat
  bits : Nat
  n : Nat
deriving Repr, DecidableEq

/-- lzx.rs:114-117: the next 16-bit little-endian word, if there is one. -/
def orWord (data : List Byte) (s : Bs) (left : Nat) : R Bs :=
  if left ≥ 2 then do
    let w ← u16le data s.off
    pure ⟨s.off + 2, s.bits ||| w, s.n⟩
  else .ok s

/-- lzx.rs:109-120 `read_data`; past the end of the data the bits are 0. Every turn adds 16 bits, so
`need` turns suffice. -/
def readData (data : List Byte) (need : Nat) : Nat → Bs → R Bs
  | 0, s => if s.n < need then .panic else .ok s
  | fuel + 1, s =>
    if s.n < need then do
      let left ← R.subU data.length s.off
      let s ← orWord data { s with bits := (s.bits <<< 16) % 2 ^ 32 } left
      readData data need fuel { s with n := s.n + 16 }
    else .ok s

/-- lzx.rs:135-137 -/
def ensure (data : List Byte) (size : Nat) (s : Bs) : R Bs :=
  if s.n < size then readData data size size s else .ok s

/-- lzx.rs:142-148: the bits that stay in the buffer, and the value. -/
def split (bits n : Nat) : R (Nat × Nat) :=
  if n = 0 then .ok (0, bits)
  else do
    let k ← R.subU 32 n
    pure (bits &&& (0xffffffff >>> k), bits >>> n)

/-- lzx.rs:129-154: the loop of `get_value`. -/
def getLoop (data : List Byte) (k : Nat) : Nat → Nat → Nat → Bs → R (Nat × Bs)
  | 0, bitOffset, value, s => if bitOffset < k then .panic else .ok (value, s)
  | fuel + 1, bitOffset, value, s =>
    if bitOffset < k then do
      let size := if k - bitOffset > 16 then 16 else k - bitOffset
      let s ← ensure data size s
      let n ← R.subU s.n size
      let (bits, v) ← split s.bits n
      let value := if bitOffset > 0 then (value <<< size) % 2 ^ 32 else value
      getLoop data k fuel (bitOffset + size) (value ||| v) ⟨s.off, bits, n⟩
    else .ok (value, s)

/-- lzx.rs:125-156 `get_value`. -/
def getValue (data : List Byte) (k : Nat) (s : Bs) : R (Nat × Bs) := getLoop data k k 0 0 s

/-- lzx.rs:75-105 `copy_bytes`. -/
def copyBytes (data : List Byte) (size : Nat) (buf : List Byte) (o : Nat) (s : Bs) : R (List Byte × Bs) := do
  R.require (s.off + size ≤ data.length)
  R.require (o + size ≤ buf.length)
  let bytes ← R.slice data s.off (s.off + size)
  let buf ← R.splice buf o (o + size) bytes
  pure (buf, ⟨s.off + size, 0, 0⟩)

/-- lzx.rs:241-244 and 529-532: `count` code sizes of `k` bits; the arrays are filled in order. -/
def readSizes (data : List Byte) (k : Nat) : Nat → Bs → R (List Byte × Bs)
  | 0, s => .ok ([], s)
  | count + 1, s => do
    let (v, s) ← getValue data k s
    let (vs, s) ← readSizes data k count s
    pure (BitVec.ofNat 8 v :: vs, s)

/-- lzx.rs:566-569 and 610-613: `code_size as u8`, the difference with the code size at `i`. -/
def delta (sizes : List Byte) (i symbol : Nat) : R Byte := do
  let old ← R.get sizes i
  let d : Int := (old.toNat : Int) - symbol
  pure (BitVec.ofInt 8 (if d < 0 then d + 17 else d))

/-- lzx.rs:579-589 -/
def times (data : List Byte) (symbol : Nat) (s : Bs) : R (Nat × Bs) :=
  if symbol = 17 then do
    let (v, s) ← getValue data 4 s
    pure (v + 4, s)
  else if symbol = 18 then do
    let (v, s) ← getValue data 5 s
    pure (v + 20, s)
  else if symbol = 19 then do
    let (v, s) ← getValue data 1 s
    pure (v + 4, s)
  else .err

/-- lzx.rs:596-615 -/
def repeated (data : List Byte) (t : Huffman.Tree) (sizes : List Byte) (i symbol : Nat) (s : Bs) :
    R (Byte × Bs) :=
  if symbol ≠ 19 then .ok (0, s)
  else do
    let (symbol, s) ← Huffman.decodeSymbol (getValue data 1) t s
    R.require (symbol ≤ 17)
    let size ← delta sizes i symbol
    pure (size, s)

/-- lzx.rs:557-575 and 578-632: one turn of the loop of `read_code_sizes`; lines 623-632 are the loop
of deflate.rs:390-395. -/
def sizesStep (data : List Byte) (t : Huffman.Tree) (n : Nat) (sizes : List Byte) (i symbol : Nat)
    (s : Bs) : R (List Byte × Nat × Bs) :=
  if symbol < 17 then do
    let size ← delta sizes i symbol
    let sizes ← R.set sizes i size
    pure (sizes, i + 1, s)
  else do
    let (count, s) ← times data symbol s
    let (size, s) ← repeated data t sizes i symbol s
    let room ← R.subU n i
    let count := if count > room then room else count
    let (sizes, i) ← Deflate.fill size count sizes i
    pure (sizes, i, s)

/-- lzx.rs:555-633: the loop of `read_code_sizes`; every turn stores at least one code size. -/
def sizesLoop (data : List Byte) (t : Huffman.Tree) (n : Nat) :
    Nat → List Byte → Nat → Bs → R (List Byte × Bs)
  | 0, sizes, i, s => if i < n then .panic else .ok (sizes, s)
  | fuel + 1, sizes, i, s =>
    if i < n then do
      let (symbol, s) ← Huffman.decodeSymbol (getValue data 1) t s
      let (sizes, i, s) ← sizesStep data t n sizes i symbol s
      sizesLoop data t n fuel sizes i s
    else .ok (sizes, s)

/-- lzx.rs:521-637 `read_code_sizes`. -/
def readCodeSizes (data : List Byte) (sizes : List Byte) (n : Nat) (s : Bs) : R (List Byte × Bs) := do
  let (pre, s) ← readSizes data 4 20 s
  let t ← Huffman.build (Huffman.new 20 15) pre
  sizesLoop data t n n sizes 0 s

/-- The three recent distances, lzx.rs:215. -/
structure Recent where
  r0 : Nat
  r1 : Nat
  r2 : Nat
deriving Repr, DecidableEq

/-- lzx.rs:440, 442-444: `recent_distances[distance_slot]` for slots 0 to 2, which takes the value of
`recent_distances[0]`; then `recent_distances[0] = distance` (line 478). -/
def useRecent (r : Recent) (slot : Nat) : Nat × Recent :=
  if slot = 0 then (r.r0, r)
  else if slot = 1 then (r.r1, ⟨r.r1, r.r0, r.r2⟩)
  else (r.r2, ⟨r.r2, r.r1, r.r0⟩)

/-- lzx.rs:454-470: the low three bits of an aligned offset. -/
def alignedBits (data : List Byte) (aligned : Option Huffman.Tree) (slot distance : Nat) (s : Bs) :
    R (Nat × Bs) :=
  match aligned with
  | none => .ok (distance, s)
  | some t =>
    if slot ≥ 8 then do
      let (a, s) ← Huffman.decodeSymbol (getValue data 1) t s
      pure ((distance <<< 3) % 2 ^ 32 ||| a, s)
    else .ok (distance, s)

/-- lzx.rs:446-450 -/
def footer (aligned : Option Huffman.Tree) (slot : Nat) : R Nat := do
  let k ← R.get footerBits slot
  if aligned.isSome ∧ slot ≥ 8 then R.subU k 3 else pure k

/-- lzx.rs:438-478: the distance of a match and the recent distances after it. -/
def readDistance (data : List Byte) (aligned : Option Huffman.Tree) (slot : Nat) (r : Recent) (s : Bs) :
    R (Nat × Recent × Bs) :=
  if slot < 3 then
    .ok ((useRecent r slot).1, (useRecent r slot).2, s)
  else do
    let k ← footer aligned slot
    let (distance, s) ← getValue data k s
    let (distance, s) ← alignedBits data aligned slot distance s
    let base ← R.get offsetBase slot
    R.check ((distance : Int) + base < 2 ^ 31)
    let distance := (((distance : Int) + base) % 2 ^ 32).toNat
    pure (distance, ⟨distance, r.r0, r.r1⟩, s)

/-- lzx.rs:430-436 -/
def readLength (data : List Byte) (lengths : Huffman.Tree) (symbol : Nat) (s : Bs) : R (Nat × Bs) :=
  if symbol % 8 = 7 then do
    let (v, s) ← Huffman.decodeSymbol (getValue data 1) lengths s
    pure (7 + v + 2, s)
  else .ok (symbol % 8 + 2, s)

/-- lzx.rs:418-508: one turn of the loop of `decompress_huffmann_encoded_block`. -/
def step (data : List Byte) (literals lengths : Huffman.Tree) (aligned : Option Huffman.Tree)
    (s : Bs) (r : Recent) (buf : List Byte) (o : Nat) (symbol : Nat) : R (Bs × Recent × List Byte × Nat) :=
  if symbol < 256 then do
    R.require (o < buf.length)
    let buf ← R.set buf o (BitVec.ofNat 8 symbol)
    pure (s, r, buf, o + 1)
  else do
    let (size, s) ← readLength data lengths symbol s
    let (distance, r, s) ← readDistance data aligned ((symbol - 256) / 8) r s
    R.require (distance ≤ o)
    let room ← R.subU buf.length o
    R.require (size ≤ room)
    let src ← R.subU o distance
    let buf ← Lz.copyMatch size buf o src
    pure (s, r, buf, o + size)

/-- lzx.rs:405-514 `decompress_huffmann_encoded_block`; `stop` is `data_end_offset`. Every turn advances
the offset, so `stop - o` turns suffice. -/
def huffBlock (data : List Byte) (literals lengths : Huffman.Tree) (aligned : Option Huffman.Tree)
    (stop : Nat) : Nat → Bs → Recent → List Byte → Nat → R (Bs × Recent × List Byte × Nat)
  | 0, s, r, buf, o => if o < stop then .panic else .ok (s, r, buf, o)
  | fuel + 1, s, r, buf, o =>
    if o < stop then do
      let (symbol, s) ← Huffman.decodeSymbol (getValue data 1) literals s
      let (s, r, buf, o) ← step data literals lengths aligned s r buf o symbol
      huffBlock data literals lengths aligned stop fuel s r buf o
    else .ok (s, r, buf, o)

/-- The state of the loop of `decompress` (lzx.rs:206-215) but for the bitstream; the literal code sizes
are kept as the two slices `[0..256]` and `[256..496]`. The aligned offset code sizes are read anew
before each use. -/
structure St where
  main1 : List Byte
  main2 : List Byte
  match_ : List Byte
  recent : Recent
  buf : List Byte
  o : Nat

/-- lzx.rs:240-272 -/
def readAligned (data : List Byte) (type : Nat) (s : Bs) : R (Option Huffman.Tree × Bs) :=
  if type = 2 then do
    let (sizes, s) ← readSizes data 3 8 s
    let t ← Huffman.build (Huffman.new 256 16) sizes
    pure (some t, s)
  else .ok (none, s)

/-- lzx.rs:239-299: a verbatim or aligned block. -/
def codedBlock (data : List Byte) (type size : Nat) (st : St) (s : Bs) : R (St × Bs) := do
  let (aligned, s) ← readAligned data type s
  let (main1, s) ← readCodeSizes data st.main1 256 s
  let (main2, s) ← readCodeSizes data st.main2 240 s
  let literals ← Huffman.build (Huffman.new (256 + 240) 16) (main1 ++ main2)
  let (match_, s) ← readCodeSizes data st.match_ 249 s
  let lengths ← Huffman.build (Huffman.new 249 16) match_
  let (s, recent, buf, o) ← huffBlock data literals lengths aligned (st.o + size) size s st.recent st.buf st.o
  pure (⟨main1, main2, match_, recent, buf, o⟩, s)

/-- lzx.rs:300-343: an uncompressed block. -/
def rawBlock (data : List Byte) (size : Nat) (st : St) (s : Bs) : R (St × Bs) := do
  let left ← R.subU data.length s.off
  R.require (12 ≤ left)
  let r0 ← u32le data s.off
  let r1 ← u32le data (s.off + 4)
  let r2 ← u32le data (s.off + 8)
  R.require (r0 ≠ 0)
  R.require (r1 ≠ 0)
  R.require (r2 ≠ 0)
  let left ← R.subU data.length (s.off + 12)
  let (buf, s) ← copyBytes data (min size left) st.buf st.o { s with off := s.off + 12 }
  pure ({ st with recent := ⟨r0, r1, r2⟩, buf := buf, o := st.o + min size left }, s)

/-- lzx.rs:222-226 -/
def readSize (data : List Byte) (s : Bs) : R (Nat × Bs) := do
  let (flag, s) ← getValue data 1 s
  if flag = 0 then getValue data 16 s else pure (32768, s)

/-- lzx.rs:221-350: one turn of the loop of `decompress`. -/
def block (data : List Byte) (st : St) (s : Bs) : R (St × Bs) := do
  let (type, s) ← getValue data 3 s
  let (size, s) ← readSize data s
  if type = 1 ∨ type = 2 then codedBlock data type size st s
  else if type = 3 then rawBlock data size st s
  else .err

/-- lzx.rs:217-351: the loop of `decompress`. A turn that does not end with an error reads at least one
word, so as many turns as there are bytes suffice. -/
def blocks (data : List Byte) : Nat → St → Bs → R St
  | 0, st, s => if s.off < data.length then (if st.o ≥ st.buf.length then .ok st else .panic) else .ok st
  | fuel + 1, st, s =>
    if s.off < data.length then
      if st.o ≥ st.buf.length then .ok st
      else do
        let (st, s) ← block data st s
        blocks data fuel st s
    else .ok st

/-- lzx.rs:370-387: the address at `off + 1` is made relative. `-(data_offset as i32)` does not overflow
since offsets are below 2^31. -/
def adjustStep (buf : List Byte) (off : Nat) : R (List Byte) := do
  let absolute ← i32le buf (off + 1)
  if absolute ≥ -(off : Int) ∧ absolute < 12000000 then
    R.splice buf (off + 1) (off + 5)
      (leBytes 4 ((if absolute ≥ 0 then absolute - off else absolute + 12000000) % 2 ^ 32).toNat)
  else pure buf

/-- lzx.rs:366-390: the loop of `decompress_adjust_call_instructions`. Every turn advances the offset. -/
def adjustLoop (size : Nat) : Nat → List Byte → Nat → R (List Byte)
  | 0, buf, off => if off < size - 6 then .panic else .ok buf
  | fuel + 1, buf, off =>
    if off < size - 6 then do
      let b ← R.get buf off
      if b ≠ 0xe8 then adjustLoop size fuel buf (off + 1)
      else do
        let buf ← adjustStep buf off
        adjustLoop size fuel buf (off + 5)
    else .ok buf

/-- lzx.rs:356-391 `decompress_adjust_call_instructions`. -/
def adjust (buf : List Byte) (size : Nat) : R (List Byte) := do
  R.require (¬ (size < 6 ∨ size > 2147483647))
  adjustLoop size size buf 0

/-- lzx.rs:201-353 `decompress`: the buffer and `uncompressed_data_size`. -/
def decompress (data buf : List Byte) : R (List Byte × Nat) := do
  let st ← blocks data data.length
    ⟨List.replicate 256 0, List.replicate 240 0, List.replicate 249 0, ⟨1, 1, 1⟩, buf, 0⟩ ⟨0, 0, 0⟩
  let buf ← adjust st.buf st.o
  pure (buf, st.o)

end Keramics.Lzx
