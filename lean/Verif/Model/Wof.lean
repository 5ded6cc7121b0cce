import Verif.Model.NtfsVolume
import Verif.Model.Lzx

/-!
# Model: streams that the Windows Overlay Filter compressed

ntfs/wof_compressed_stream.rs. The source of the LZXPRESS Huffman decompressor (keramics-compression/src/lzxpress.rs) is not in the
tree: it is a parameter here. Debug output through the mediator is left out, and so is what becomes of the stream after an error.
-/

namespace Keramics.Wof
open NtfsFs

/-- wof_compressed_stream.rs:109-120: the size of the units of a compression method. -/
def unitOf : Nat → R Nat
  | 0 => .ok 4096
  | 1 => .ok 32768
  | 2 => .ok 8192
  | 3 => .ok 16384
  | _ => .err

/-- `NtfsWofCompressedStream`, wof_compressed_stream.rs:29-59, without what changes: see `State`. -/
structure Opened where
  blocks : Ntfs.Opened
  method : Nat
  unit : Nat
  compressed : Nat
  size : Nat

/-- `NtfsWofCompressedStream::open`, wof_compressed_stream.rs:79-124, with `new`, lines 63-76. -/
def openStream (bs : Nat) (a : Attr) (size method : Nat) : R Opened := do
  R.require (a.isCompressed = false)
  R.require (a.isResident = false)
  let blocks ← Ntfs.openStream bs a.opens
  let unit ← unitOf method
  return ⟨blocks, method, unit, a.validSize, size⟩

/-- The stream of what `get_data_stream_by_name` opens, mft_attributes.rs:256-292. -/
def openWof (bs : Nat) : NtfsFs.Opened → R (Option Opened)
  | .wof a size method => do
    let w ← openStream bs a size method
    return some w
  | _ => .ok none

/-- The offsets of the blocks and the cache of decompressed blocks, wof_compressed_stream.rs:54-58, 73-74. -/
structure State where
  offsets : List Nat
  cache : LruCache.Cache Nat (List Byte)

def State.new : State := ⟨[], LruCache.new 8⟩

/-- `data_stream_read_exact_at_position!` on the stream with the compressed data. -/
def readExact (U : List Byte) (bs : Nat) (w : Opened) (pos n : Nat) : R (List Byte) := do
  let (data, _) ← (Stream.mk () pos).read (Ntfs.stream U bs w.blocks) n
  R.require (data.length = n)
  return data

/-- wof_compressed_stream.rs:292-296 -/
def width (w : Opened) : Nat := if w.compressed > 4294967295 then 8 else 4

/-- wof_compressed_stream.rs:327-331 -/
def entryAt (data : List Byte) (width offset : Nat) : R Nat := if width = 8 then u64le data offset else u32le data offset

/-- The loop wof_compressed_stream.rs:326-341: the number of entries left, the offset in the table and the offsets of blocks. -/
def offsetsLoop (w : Opened) (data : List Byte) : Nat → Nat → R (List Nat)
  | 0, _ => .ok []
  | n + 1, offset => do
    let entry ← entryAt data (width w) offset
    let block ← R.addU 64 entry data.length
    R.require (¬ block > w.compressed)
    let rest ← offsetsLoop w data n (offset + width w)
    return block :: rest

/-- `read_compressed_block_offsets`, wof_compressed_stream.rs:291-355. The size is not 0. -/
def readOffsets (U : List Byte) (bs : Nat) (w : Opened) : R (List Nat) := do
  let number := BlockTree.divCeil w.size w.unit
  let less ← R.subU number 1
  let size ← R.mulU 64 less (width w)
  let data ← readExact U bs w 0 size
  let rest ← offsetsLoop w data less 0
  return size :: rest

/-- wof_compressed_stream.rs:128-139 -/
def withOffsets (U : List Byte) (bs : Nat) (w : Opened) (offsets : List Nat) : R (List Nat) :=
  if w.size > 0 ∧ offsets.length = 0 then readOffsets U bs w else .ok offsets

/-- wof_compressed_stream.rs:251-286: `lz` is the LZXPRESS Huffman decompressor. -/
def decompress (lz : List Byte → List Byte → R (List Byte)) (method : Nat) (data buffer : List Byte) : R (List Byte) :=
  if method = 0 ∨ method = 2 ∨ method = 3 then lz data buffer
  else if method = 1 then do
    let (out, _) ← Lzx.decompress data buffer
    return out
  else .err

/-- wof_compressed_stream.rs:186-203, with `read_compressed_block`, lines 225-288: the cache with the block. -/
def cached (lz : List Byte → List Byte → R (List Byte)) (U : List Byte) (bs : Nat) (w : Opened) (cache : LruCache.Cache Nat (List Byte))
    (offset size : Nat) : R (LruCache.Cache Nat (List Byte)) :=
  if cache.contains offset then .ok cache else do
    let data ← readExact U bs w offset size
    let out ← decompress lz w.method data (List.replicate w.unit 0#8)
    cache.insert offset out

/-- wof_compressed_stream.rs:151-156 -/
def nextOffset (w : Opened) (offsets : List Nat) (index : Nat) : Nat := (offsets[index + 1]?).getD w.compressed

/-- wof_compressed_stream.rs:171-217: the bytes of a block. -/
def blockBytes (lz : List Byte → List Byte → R (List Byte)) (U : List Byte) (bs : Nat) (w : Opened) (cache : LruCache.Cache Nat (List Byte))
    (offset size range relative count : Nat) : R (List Byte × LruCache.Cache Nat (List Byte)) :=
  if range = size then do
    let position ← R.addU 64 offset relative
    let out ← readExact U bs w position count
    return (out, cache)
  else do
    let cache ← cached lz U bs w cache offset size
    let data ← Fat.orErr (cache.get offset)
    let out ← R.slice data relative (relative + count)
    return (out, cache)

/-- One iteration of `read_data_from_blocks`, wof_compressed_stream.rs:145-219. -/
def piece (lz : List Byte → List Byte → R (List Byte)) (U : List Byte) (bs : Nat) (w : Opened) (offsets : List Nat)
    (cache : LruCache.Cache Nat (List Byte)) (current want : Nat) : R (List Byte × LruCache.Cache Nat (List Byte)) := do
  let index := current / w.unit
  let offset ← R.get offsets index
  let size ← R.subU (nextOffset w offsets index) offset
  let start := index * w.unit
  let left ← R.subU w.size start
  let range := min w.unit left
  let relative := current - start
  let remainder ← R.subU range relative
  let count := min want remainder
  if count = 0 then return ([], cache)
  else blockBytes lz U bs w cache offset size range relative count

/-- `NtfsWofCompressedStream` after `open`: `read_data_from_blocks`, wof_compressed_stream.rs:127-222. -/
def stream (lz : List Byte → List Byte → R (List Byte)) (U : List Byte) (bs : Nat) (w : Opened) : Reader State where
  size := w.size
  readData s current n := do
    let offsets ← withOffsets U bs w s.offsets
    let (out, cache) ← Blocks.loop (piece lz U bs w offsets) w.size n s.cache current n
    return (out, ⟨offsets, cache⟩)

end Keramics.Wof
