import Verif.Model.Deflate
import Verif.Model.Adler32
import Verif.Base.Ints

/-! Model of `keramics-compression/src/zlib.rs`. The debug output is not modelled. -/

namespace Keramics.Zlib

/-- zlib.rs:75-113 `ZlibDataHeader::read_data`: the header size. -/
def headerSize (data : List Byte) : R Nat := do
  R.require (2 ≤ data.length)
  let compression := (← R.get data 0).toNat
  R.require (compression &&& 0x0f = 8)
  let windowBits := (compression >>> 4) + 8
  R.require (1 <<< windowBits ≤ 32768)
  let flags := (← R.get data 1).toNat
  if flags &&& 0x20 ≠ 0 then do
    R.require (6 ≤ data.length)
    pure 6
  else pure 2

/-- deflate.rs:141-148 `unread_data`. -/
def unread : Nat → Deflate.Bs → R Deflate.Bs
  | fuel, s =>
    if s.n > 8 then match fuel with
      | 0 => .panic
      | fuel + 1 => do
        let off ← R.subU s.off 1
        unread fuel ⟨off, s.bits >>> 8, s.n - 8⟩
    else .ok s

/-- zlib.rs:163-176: the check of the trailer against the buffer. -/
def checkTrailer (data : List Byte) (off : Nat) (buf : List Byte) : R Unit := do
  let left ← R.subU data.length off
  if 4 < left then do
    let stored ← u32be data off
    let c ← (Adler32.Ctx.new 1#32).update buf
    R.require (stored = c.finalize.1.toNat)
  else pure ()

/-- zlib.rs:135-180 `ZlibContext::decompress`: the buffer and `uncompressed_data_size`. The bit buffer
has at most 32 bits, so `unread_data` turns at most 4 times. -/
def decompress (data buf : List Byte) : R (List Byte × Nat) := do
  let start ← headerSize data
  let (s, buf, size) ← Deflate.decompressBitstream data start buf
  let s ← unread 4 s
  checkTrailer data s.off buf
  pure (buf, size)

end Keramics.Zlib
