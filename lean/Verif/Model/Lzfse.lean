import Verif.Model.Lz
import Verif.Model.Lzvn

/-!
# keramics-compression/src/lzfse.rs

The compressed data never changes and is passed along. Debug output is not modelled. u16, u32 and i32
values that the code keeps from being negative are `Nat`; where a value could be negative or too large
the definitions say what happens.
-/

namespace Keramics.Lzfse

/-! ## Bit stream -/

/-- lzfse.rs:89-103 `LzfseBitstream`: `data_offset`, `bits` and `number_of_bits`. -/
structure Bs where
  off : Nat
  bits : Nat
  n : Nat
deriving Repr, DecidableEq

/-- lzfse.rs:122-129: one turn of the loop of `read_data`. The offset starts within the data and only
becomes smaller, so the byte exists. -/
def push (data : List Byte) (s : Bs) : Bs :=
  if s.off > 0 then ⟨s.off - 1, (s.bits <<< 8) % 2 ^ 32 ||| (data.getD (s.off - 1) 0).toNat, s.n + 8⟩
  else ⟨0, (s.bits <<< 8) % 2 ^ 32, s.n + 8⟩

/-- lzfse.rs:120-131 `read_data`: at most 24 bits are asked for, so three turns suffice. -/
def readData (data : List Byte) (need : Nat) : Nat → Bs → Bs
  | 0, s => s
  | fuel + 1, s => if need > s.n then readData data need fuel (push data s) else s

/-- lzfse.rs:146-159: at most 24 bits. -/
def part (data : List Byte) (size : Nat) (s : Bs) : Nat × Bs :=
  let s := readData data size 3 s
  let n := s.n - size
  if n = 0 then (s.bits, ⟨s.off, 0, 0⟩)
  else (s.bits >>> n, ⟨s.off, s.bits &&& (0xffffffff >>> (32 - n)), n⟩)

/-- lzfse.rs:136-167 `get_value`: no more than 32 bits are asked for, so the loop runs at most twice. -/
def getValue (data : List Byte) (size : Nat) (s : Bs) : Nat × Bs :=
  if size = 0 then (0, s)
  else if size ≤ 24 then part data size s
  else
    let (a, s) := part data 24 s
    let (b, s) := part data (size - 24) s
    ((a <<< (size - 24)) ||| b, s)

/-! ## Decoder tables -/

/-- Rust's `leading_zeros` of a 16-bit number. -/
def leadingZeros16 (v : Nat) : Nat := if v = 0 then 16 else 15 - Nat.log2 v

/-- lzfse.rs:492-499 and 549-556: the sum of the frequencies so far. The sum is an i16: a frequency
that does not fit is a negative number there, for which the subtraction that follows
(`weights`, lzfse.rs:500) always overflows, so the sum does not matter. -/
def addFrequency (states sum frequency : Nat) : R Nat :=
  if 2 ^ 15 ≤ frequency then .ok sum
  else if 2 ^ 15 ≤ sum + frequency then .panic
  else do
    R.require (sum + frequency ≤ states)
    pure (sum + frequency)

/-- lzfse.rs:505-516 and 571-578: the number of bits and the delta of one state of a symbol. Neither
subtraction is negative: `states ≤ frequency · 2^bits`, and `bits` is not 0 if the weight is not below
the base weight. -/
def weight (states frequency bits w : Nat) : Nat × Nat :=
  let base := (2 * states) >>> bits - frequency
  if w < base then (bits, (frequency + w) <<< bits - states)
  else (bits - 1, (w - base) <<< (bits - 1))

/-- An entry for a state, before the values are added: the symbol, the number of bits of the state and
the delta. -/
structure Entry where
  symbol : Nat
  bits : Nat
  delta : Nat
deriving Repr, DecidableEq

/-- lzfse.rs:485-519 and 542-581: the loop over the symbols, which `build_decoder_table` and
`build_value_decoder_table` have in common. -/
def entries (states : Nat) : Nat → Nat → List Nat → R (List Entry)
  | _, _, [] => .ok []
  | symbol, sum, f :: fs =>
    if f = 0 then entries states (symbol + 1) sum fs
    else do
      let sum ← addFrequency states sum f
      let bits ← R.subU (leadingZeros16 f) (leadingZeros16 states)
      let rest ← entries states (symbol + 1) sum fs
      pure ((List.range f).map (fun w =>
        let (k, delta) := weight states f bits w
        ⟨symbol, k, delta⟩) ++ rest)

/-- lzfse.rs:469-521 `build_decoder_table`; the number of symbols is the length of the table. -/
def buildTable (states : Nat) (frequencies : List Nat) : R (List Entry) := entries states 0 0 frequencies

/-- lzfse.rs:349-364 `LzfseValueDecoderEntry`, without the bitmask, which keeps the lowest
`valueBits` bits. `bits` is the number of bits of the state and the value together. -/
structure ValueEntry where
  bits : Nat
  valueBits : Nat
  delta : Nat
  base : Nat
deriving Repr, DecidableEq

/-- lzfse.rs:60-64 `LZFSE_D_VALUE_BITS_TABLE`. -/
def dBits : List Nat :=
  [0, 0, 0, 0, 1, 1, 1, 1, 2, 2, 2, 2, 3, 3, 3, 3, 4, 4, 4, 4, 5, 5, 5, 5, 6, 6, 6, 6, 7, 7, 7, 7,
   8, 8, 8, 8, 9, 9, 9, 9, 10, 10, 10, 10, 11, 11, 11, 11, 12, 12, 12, 12, 13, 13, 13, 13, 14, 14,
   14, 14, 15, 15, 15, 15]

/-- lzfse.rs:66-71 `LZFSE_D_VALUE_BASE_TABLE`. -/
def dBase : List Nat :=
  [0, 1, 2, 3, 4, 6, 8, 10, 12, 16, 20, 24, 28, 36, 44, 52, 60, 76, 92, 108, 124, 156, 188, 220,
   252, 316, 380, 444, 508, 636, 764, 892, 1020, 1276, 1532, 1788, 2044, 2556, 3068, 3580, 4092,
   5116, 6140, 7164, 8188, 10236, 12284, 14332, 16380, 20476, 24572, 28668, 32764, 40956, 49148,
   57340, 65532, 81916, 98300, 114684, 131068, 163836, 196604, 229372]

/-- lzfse.rs:73-74 `LZFSE_L_VALUE_BITS_TABLE`. -/
def lBits : List Nat := [0, 0, 0, 0, 0, 0, 0, 0, 0, 0, 0, 0, 0, 0, 0, 0, 2, 3, 5, 8]

/-- lzfse.rs:76-78 `LZFSE_L_VALUE_BASE_TABLE`. -/
def lBase : List Nat := [0, 1, 2, 3, 4, 5, 6, 7, 8, 9, 10, 11, 12, 13, 14, 15, 16, 20, 28, 60]

/-- lzfse.rs:80-81 `LZFSE_M_VALUE_BITS_TABLE`. -/
def mBits : List Nat := [0, 0, 0, 0, 0, 0, 0, 0, 0, 0, 0, 0, 0, 0, 0, 0, 3, 5, 8, 11]

/-- lzfse.rs:83-85 `LZFSE_M_VALUE_BASE_TABLE`. -/
def mBase : List Nat := [0, 1, 2, 3, 4, 5, 6, 7, 8, 9, 10, 11, 12, 13, 14, 15, 16, 24, 56, 312]

/-- lzfse.rs:561-570: the values of a symbol added to the entry of its state. The tables have an entry
for every symbol. -/
def valueEntry (valueBits valueBase : List Nat) (e : Entry) : ValueEntry :=
  let v := valueBits.getD e.symbol 0
  ⟨e.bits + v, v, e.delta, valueBase.getD e.symbol 0⟩

/-- lzfse.rs:524-583 `build_value_decoder_table`. -/
def buildValueTable (states : Nat) (frequencies valueBits valueBase : List Nat) : R (List ValueEntry) := do
  let es ← entries states 0 0 frequencies
  pure (es.map (valueEntry valueBits valueBase))

/-! ## Block headers -/

/-- lzfse.rs:380-409 `LzfseDecoder`: the values of a block header. -/
structure Header where
  literals : Nat
  lmdValues : Nat
  literalsSize : Nat
  lmdSize : Nat
  state0 : Nat
  state1 : Nat
  state2 : Nat
  state3 : Nat
  lState : Nat
  mState : Nat
  dState : Nat
  literalBits : Int
  lmdBits : Int
deriving Repr, DecidableEq

/-- lzfse.rs:221-244 `LzfseBlockV1Header::read_data`. -/
def readV1 (data : List Byte) : R Header := do
  R.require (data.length = 42)
  let literals ← u32le data 4
  let lmdValues ← u32le data 8
  let literalsSize ← u32le data 12
  let lmdSize ← u32le data 16
  let literalBits ← i32le data 20
  let s0 ← u16le data 24
  let s1 ← u16le data 26
  let s2 ← u16le data 28
  let s3 ← u16le data 30
  let lmdBits ← i32le data 32
  let l ← u16le data 36
  let m ← u16le data 38
  let d ← u16le data 40
  pure ⟨literals, lmdValues, literalsSize, lmdSize, s0, s1, s2, s3, l, m, d, literalBits, lmdBits⟩

/-- lzfse.rs:287-322 `LzfseBlockV2Header::read_data`: the header, and the header size. -/
def readV2 (data : List Byte) : R (Header × Nat) := do
  R.require (¬ data.length < 24)
  let f1 ← u64le data 0
  let f2 ← u64le data 8
  let f3 ← u64le data 16
  let size := f3 &&& 0xffffffff
  let h : Header := {
    literals := f1 &&& 0x000fffff
    literalsSize := (f1 >>> 20) &&& 0x000fffff
    lmdValues := (f1 >>> 40) &&& 0x000fffff
    literalBits := (((f1 >>> 60) &&& 7 : Nat) : Int) - 7
    state0 := f2 &&& 0x3ff
    state1 := (f2 >>> 10) &&& 0x3ff
    state2 := (f2 >>> 20) &&& 0x3ff
    state3 := (f2 >>> 30) &&& 0x3ff
    lmdSize := (f2 >>> 40) &&& 0x000fffff
    lmdBits := (((f2 >>> 60) &&& 7 : Nat) : Int) - 7
    lState := (f3 >>> 32) &&& 0x3ff
    mState := (f3 >>> 42) &&& 0x3ff
    dState := (f3 >>> 52) &&& 0x3ff }
  R.require (¬ (size < 32 ∨ size > 720))
  pure (h, size)

/-- lzfse.rs:925-942: the frequency table of a version 1 block, one 16-bit number after the other. -/
def readTable (data : List Byte) : Nat → Nat → R (List Nat)
  | 0, _ => .ok []
  | count + 1, off => do
    let f ← u16le data off
    let fs ← readTable data count (off + 2)
    pure (f :: fs)

/-- lzfse.rs:879-950 `read_block_v1_header`: the header, the frequency table and the offset after
them. Line 925 sets the offset of the table to 42, whatever the offset of the header. -/
def blockV1 (data : List Byte) (off : Nat) : R (Header × List Nat × Nat) := do
  let left ← R.subU data.length off
  R.require (¬ 762 > left)
  let bytes ← R.slice data off (off + 42)
  let h ← readV1 bytes
  let fs ← readTable data 360 42
  pure (h, fs, 42 + 720)

/-- lzfse.rs:50-53 `LZFSE_FREQUENCY_NUMBER_OF_BITS_TABLE`. -/
def frequencyBits : List Nat :=
  [2, 3, 2, 5, 2, 3, 2, 8, 2, 3, 2, 5, 2, 3, 2, 14, 2, 3, 2, 5, 2, 3, 2, 8, 2, 3, 2, 5, 2, 3, 2, 14]

/-- lzfse.rs:55-58 `LZFSE_FREQUENCY_VALUE_TABLE`. -/
def frequencyValues : List Nat :=
  [0, 2, 1, 4, 0, 3, 1, 0xffff, 0, 2, 1, 5, 0, 3, 1, 0xffff, 0, 2, 1, 6, 0, 3, 1, 0xffff, 0, 2, 1,
   7, 0, 3, 1, 0xffff]

/-- The bits of the compressed frequency table: `data_offset`, `value_32bit` and `number_of_bits`. -/
structure Fs where
  off : Nat
  value : Nat
  n : Nat
deriving Repr, DecidableEq

/-- lzfse.rs:1010-1014: at most four bytes fit. -/
def fillTable (data : List Byte) (stop : Nat) : Nat → Fs → R Fs
  | 0, s => .ok s
  | fuel + 1, s =>
    if s.n ≤ 24 ∧ s.off < stop then do
      let b ← R.get data s.off
      fillTable data stop fuel ⟨s.off + 1, s.value ||| (b.toNat <<< s.n) % 2 ^ 32, s.n + 8⟩
    else .ok s

/-- lzfse.rs:1015-1023: the number of bits and the value of a frequency. -/
def frequency (value : Nat) : Nat × Nat :=
  let i := value &&& 0x1f
  let size := frequencyBits.getD i 0
  (size, if size = 8 then ((value >>> 4) &&& 0xf) + 8
    else if size = 14 then ((value >>> 4) &&& 0x3ff) + 24
    else frequencyValues.getD i 0)

/-- lzfse.rs:1009-1039: the frequencies and the offset after them. -/
def readFrequencies (data : List Byte) (stop : Nat) : Nat → Fs → R (List Nat × Nat)
  | 0, s => .ok ([], s.off)
  | count + 1, s => do
    let s ← fillTable data stop 4 s
    let (size, f) := frequency s.value
    let n ← R.subU s.n size
    let (fs, off) ← readFrequencies data stop count ⟨s.off, s.value >>> size, n⟩
    pure (f :: fs, off)

/-- lzfse.rs:991-1044: a header of 32 bytes has no frequency table, the one before stays. -/
def frequencyTable (data : List Byte) (size off : Nat) (old : List Nat) : R (List Nat × Nat) :=
  if size > 32 then readFrequencies data (off + (size - 32)) 360 ⟨off, 0, 0⟩ else .ok (old, off)

/-- lzfse.rs:953-1048 `read_block_v2_header`: the header, the frequency table and the offset after
them. -/
def blockV2 (data : List Byte) (off : Nat) (old : List Nat) : R (Header × List Nat × Nat) := do
  R.require (¬ off + 24 > data.length)
  let bytes ← R.slice data off (off + 24)
  let (h, size) ← readV2 bytes
  let left ← R.subU data.length off
  R.require (¬ size > left)
  let (fs, off) ← frequencyTable data size (off + 24) old
  pure (h, fs, off)

/-! ## Blocks -/

/-- lzfse.rs:1077-1098: a literal. A state above the number of states has no entry either. -/
def literal (data : List Byte) (table : List Entry) (state : Nat) (s : Bs) : R (Byte × Nat × Bs) :=
  match table[state]? with
  | none => .err
  | some e =>
    let (value, s) := getValue data e.bits s
    .ok (BitVec.ofNat 8 e.symbol, (e.delta + value) % 2 ^ 16, s)

/-- lzfse.rs:1075-1115: the literals, four at a time. They are collected in a list; the rest of the
array `literal_values` stays 0. -/
def readLiterals (data : List Byte) (table : List Entry) : Nat → Nat → Nat → Nat → Nat → Bs → R (List Byte)
  | 0, _, _, _, _, _ => .ok []
  | turns + 1, s0, s1, s2, s3, s => do
    let (a, s0, s) ← literal data table s0 s
    let (b, s1, s) ← literal data table s1 s
    let (c, s2, s) ← literal data table s2 s
    let (d, s3, s) ← literal data table s3 s
    let rest ← readLiterals data table turns s0 s1 s2 s3 s
    pure (a :: b :: c :: d :: rest)

/-- lzfse.rs:48 `LZFSE_MAXIMUM_NUMBER_OF_LITERALS`. -/
def maxLiterals : Nat := 40064

/-- lzfse.rs:1051-1120 `read_literal_values`. The loop runs `step_by(4)`, and the maximum number is a
multiple of 4, so the indexes are within the array. -/
def literalValues (data : List Byte) (h : Header) (table : List Entry) (stop : Nat) : R (List Byte) := do
  R.require (¬ h.literals > maxLiterals)
  R.require (¬ (h.literalBits < -32 ∨ h.literalBits > 0))
  let (_, s) := getValue data (-h.literalBits).toNat ⟨stop, 0, 0⟩
  readLiterals data table ((h.literals + 3) / 4) h.state0 h.state1 h.state2 h.state3 s

/-- lzfse.rs:1153-1173, 1182-1202 and 1211-1231: an L, M or D value, and the next state. -/
def lmdValue (data : List Byte) (table : List ValueEntry) (state : Nat) (s : Bs) : R (Nat × Nat × Bs) :=
  match table[state]? with
  | none => .err
  | some e =>
    let (value, s) := getValue data e.bits s
    .ok (e.base + value % 2 ^ e.valueBits, e.delta + value >>> e.valueBits, s)

/-- lzfse.rs:1239-1241 -/
def activeDistance (active d : Nat) : Nat := if d ≠ 0 then d else active

/-- lzfse.rs:1253-1258: the literals from an index on; those that were not read are 0. -/
def takeLiterals (literals : List Byte) (index count : Nat) : List Byte :=
  (List.range count).map fun i => literals.getD (index + i) 0

/-- lzfse.rs:416-421: the decoder tables of a block. -/
structure Tables where
  l : List ValueEntry
  m : List ValueEntry
  d : List ValueEntry
  literal : List Entry

/-- lzfse.rs:1141-1146: the variables of the loop of `read_lmd_values`. -/
structure Lmd where
  off : Nat
  active : Nat
  index : Nat
  l : Nat
  m : Nat
  d : Nat

/-- lzfse.rs:1242-1281: what an L, an M and a D value do to the data; the offset after them. The
remaining data size is the size less the offset. Both values are below 2^31, so they are not negative;
the remaining size becomes an i32. -/
def copyBlock (literals buf : List Byte) (off active index l m : Nat) : R (List Byte × Nat) := do
  R.require (¬ (l > min (maxLiterals - 1) (buf.length - off) ∨ index + l > maxLiterals))
  let buf ← R.splice buf off (off + l) (takeLiterals literals index l)
  let off := off + l
  R.require (¬ (m : Int) > toSigned 32 ((buf.length - off) % 2 ^ 32))
  R.require (¬ active > off)
  let buf ← Lz.copyMatch m buf off (off - active)
  pure (buf, off + m)

/-- lzfse.rs:1151-1282: the loop of `read_lmd_values`. -/
def lmdLoop (data literals : List Byte) (t : Tables) : Nat → Lmd → Bs → List Byte → R (List Byte × Nat)
  | 0, v, _, buf => .ok (buf, v.off)
  | count + 1, v, s, buf => do
    let (l, lState, s) ← lmdValue data t.l v.l s
    let (m, mState, s) ← lmdValue data t.m v.m s
    let (d, dState, s) ← lmdValue data t.d v.d s
    let active := activeDistance v.active d
    let (buf, off) ← copyBlock literals buf v.off active v.index l m
    lmdLoop data literals t count ⟨off, active, v.index + l, lState, mState, dState⟩ s buf

/-- lzfse.rs:1123-1289 `read_lmd_values`: the buffer and the offset. -/
def lmdValues (data : List Byte) (h : Header) (t : Tables) (stop : Nat) (literals buf : List Byte) (off : Nat) :
    R (List Byte × Nat) := do
  R.require (¬ (h.lmdBits < -32 ∨ h.lmdBits > 0))
  let (_, s) := getValue data (-h.lmdBits).toNat ⟨stop, 0, 0⟩
  lmdLoop data literals t h.lmdValues ⟨off, 0, 0, h.lState, h.mState, h.dState⟩ s buf

/-- lzfse.rs:831-876 `decompress_block`: the offset in the data, the buffer and its offset. -/
def block (data : List Byte) (h : Header) (t : Tables) (off : Nat) (buf : List Byte) (out : Nat) :
    R (Nat × List Byte × Nat) := do
  let left ← R.subU data.length off
  R.require (¬ h.literalsSize > left)
  let stop := off + h.literalsSize
  let literals ← literalValues data h t.literal stop
  let left ← R.subU data.length stop
  R.require (¬ h.lmdSize > left)
  let (buf, out) ← lmdValues data h t (stop + h.lmdSize) literals buf out
  pure (stop + h.lmdSize, buf, out)

/-- lzfse.rs:751-780: the tables of a block. -/
def tables (frequencies : List Nat) : R Tables := do
  let l ← buildValueTable 64 (frequencies.take 20) lBits lBase
  let m ← buildValueTable 64 ((frequencies.drop 20).take 20) mBits mBase
  let d ← buildValueTable 256 ((frequencies.drop 40).take 64) dBits dBase
  let literal ← buildTable 1024 ((frequencies.drop 104).take 256)
  pure ⟨l, m, d, literal⟩

/-- The variables of the loop of `decompress`: `compressed_data_offset`,
`uncompressed_data_offset`, the frequency table and the uncompressed data. -/
structure St where
  off : Nat
  out : Nat
  frequencies : List Nat
  buf : List Byte

/-- lzfse.rs:751-789: the block after its header. -/
def coded (data : List Byte) (st : St) (header : Header × List Nat × Nat) : R St := do
  let t ← tables header.2.1
  let (off, buf, out) ← block data header.1 t header.2.2 st.buf st.out
  pure ⟨off, out, header.2.1, buf⟩

/-- lzfse.rs:701-823: the block after its marker and size. -/
def dispatch (data : List Byte) (marker size : Nat) (st : St) : R St :=
  if marker = 0x2d787662 then do
    let left ← R.subU data.length st.off
    R.require (¬ size > left)
    let bytes ← R.slice data st.off (st.off + size)
    let buf ← R.splice st.buf st.out (st.out + size) bytes
    pure { st with off := st.off + size, out := st.out + size, buf := buf }
  else if marker = 0x31787662 then do
    let h ← blockV1 data st.off
    coded data st h
  else if marker = 0x32787662 then do
    let h ← blockV2 data st.off st.frequencies
    coded data st h
  else do
    let left ← R.subU data.length st.off
    R.require (¬ 4 > left)
    let n ← u32le data st.off
    let off := st.off + 4
    let left ← R.subU data.length off
    R.require (¬ n > left)
    let bytes ← R.slice data off (off + n)
    let window ← R.slice st.buf st.out (st.out + size)
    let (window, _) ← Lzvn.decompress bytes window
    let buf ← R.splice st.buf st.out (st.out + size) window
    pure { st with off := off + n, out := st.out + size, buf := buf }

/-- lzfse.rs:603-823: a turn of the loop of `decompress`, after the tests on the offsets; `none` at the
end of stream marker. -/
def turn (data : List Byte) (st : St) : R (Option St) := do
  let left ← R.subU data.length st.off
  R.require (¬ 4 > left)
  let marker ← u32le data st.off
  if marker = 0x24787662 then .ok none
  else do
    R.require (marker = 0x2d787662 ∨ marker = 0x31787662 ∨ marker = 0x32787662 ∨ marker = 0x6e787662)
    let left ← R.subU data.length (st.off + 4)
    R.require (¬ 4 > left)
    let size ← u32le data (st.off + 4)
    let room ← R.subU st.buf.length st.out
    R.require (¬ size > room)
    let st ← dispatch data marker size { st with off := st.off + 8 }
    pure (some st)

/-- What to do after a turn. -/
def continueWith (next : St → R (List Byte × Nat)) (st : St) : Option St → R (List Byte × Nat)
  | none => .ok (st.buf, st.out)
  | some st' => next st'

/-- lzfse.rs:599-824: the loop of `decompress`, `.panic` if it runs for longer than the given number of
turns. -/
def loop (data : List Byte) : Nat → St → R (List Byte × Nat)
  | 0, _ => .panic
  | fuel + 1, st =>
    if st.off < data.length ∧ ¬ st.out ≥ st.buf.length then do
      let r ← turn data st
      continueWith (loop data fuel) st r
    else .ok (st.buf, st.out)

/-- The number of turns after which the loop runs forever. A turn depends on the two offsets, on which
frequency table was read last, and on the buffer. While the offset in the buffer stays the same so does
the buffer, and a table is that of a block at some offset; so if more turns than this are made the same
state comes twice. -/
def maxTurns (data buf : List Byte) : Nat := (data.length + 2) * (data.length + 2) * (buf.length + 2)

/-- lzfse.rs:586-828 `decompress`: the uncompressed data and `uncompressed_data_size`. `.panic`
includes a call that does not return. -/
def decompress (data buf : List Byte) : R (List Byte × Nat) :=
  loop data (maxTurns data buf) ⟨0, 0, List.replicate 360 0, buf⟩

end Keramics.Lzfse
