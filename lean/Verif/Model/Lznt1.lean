import Verif.Model.Lz

/-!
Model of keramics-compression/src/lznt1.rs. Mediator debug output is left out.
-/

namespace Keramics.Lznt1

/-- lznt1.rs:52-64 `Lznt1BlockHeader::read_data`: block size and compressed flag. -/
def readHeader (data : List Byte) : R (Nat × Bool) := do
  R.require (2 ≤ data.length)
  let v ← u16le data 0
  pure ((v &&& 0x0fff) + 1, v &&& 0x8000 ≠ 0)

/-- The local variables of `decompress_block`: compressed offset, output slice, output offset,
threshold, distance shift, match size mask. -/
structure St where
  c : Nat
  buf : List Byte
  o : Nat
  threshold : Nat
  shift : Nat
  mask : Nat

/-- lznt1.rs:307-316: adjust threshold, shift and mask to the output offset. -/
def adjust (o : Nat) : Nat → Nat → Nat → R (Nat × Nat × Nat)
  | shift, threshold, mask =>
    if o > threshold then
      match shift with
      | 0 => .err
      | shift + 1 => adjust o shift (threshold <<< 1) (mask >>> 1)
    else .ok (threshold, shift, mask)

/-- lznt1.rs:221-300: one compressed tuple or literal; u16 additions are overflow checked. -/
def token (data : List Byte) (flags : Nat) (s : St) : R (Nat × List Byte × Nat) :=
  if flags &&& 0x01 ≠ 0 then do
    R.require (2 ≤ (← R.subU data.length s.c))
    let tuple ← u16le data s.c
    let distance ← R.addU 16 (tuple >>> s.shift) 1
    let size ← R.addU 16 (tuple &&& s.mask) 3
    R.require (distance ≤ s.o)
    R.require (size ≤ (← R.subU s.buf.length s.o))
    let buf ← Lz.copyMatch size s.buf s.o (s.o - distance)
    pure (s.c + 2, buf, s.o + size)
  else do
    R.require (s.c < data.length)
    R.require (s.o < s.buf.length)
    let b ← R.get data s.c
    let buf ← R.set s.buf s.o b
    pure (s.c + 1, buf, s.o + 1)

/-- lznt1.rs:220-317: the `for _ in 0..8` loop. -/
def tokens (data : List Byte) (stop : Nat) : Nat → Nat → St → R St
  | 0, _, s => .ok s
  | n + 1, flags, s => do
    let (c, buf, o) ← token data flags s
    if c ≥ stop then pure { s with c := c, buf := buf, o := o }
    else do
      let (threshold, shift, mask) ← adjust o s.shift s.threshold s.mask
      tokens data stop n (flags >>> 1) ⟨c, buf, o, threshold, shift, mask⟩

/-- lznt1.rs:202-318: the `while` loop; each iteration consumes a byte. -/
def groups (data : List Byte) (stop : Nat) : Nat → St → R St
  | fuel, s =>
    if s.c < stop then
      if s.c ≥ data.length then .ok s
      else match fuel with
        | 0 => .panic
        | fuel + 1 => do
          let flags ← R.get data s.c
          let s ← tokens data stop 8 flags.toNat { s with c := s.c + 1 }
          groups data stop fuel s
    else .ok s

/-- lznt1.rs:181-325 `decompress_block`: the output slice, the new compressed offset and the number
of bytes written. -/
def decompressBlock (size : Nat) (data : List Byte) (c : Nat) (buf : List Byte) :
    R (List Byte × Nat × Nat) := do
  let s ← groups data (c + size) size ⟨c, buf, 0, 16, 12, 0x0fff⟩
  pure (s.buf, c + size, s.o)

/-- lznt1.rs:111-173: one block. -/
def block (data : List Byte) (c : Nat) (buf : List Byte) (o : Nat) : R (Nat × List Byte × Nat) := do
  let h ← R.slice data c (c + 2)
  let (size, compressed) ← readHeader h
  let c := c + 2
  if compressed then do
    R.check (o ≤ buf.length)
    let (out, c, n) ← decompressBlock size data c (buf.drop o)
    pure (c, buf.take o ++ out, o + n)
  else do
    R.require (c + size ≤ data.length)
    R.require (o + size ≤ buf.length)
    let bytes ← R.slice data c (c + size)
    let buf ← R.splice buf o (o + size) bytes
    pure (c + size, buf, o + size)

/-- lznt1.rs:97-174: the loop over blocks. -/
def loop (data : List Byte) : Nat → Nat → List Byte → Nat → R (List Byte × Nat)
  | fuel, c, buf, o =>
    if c < data.length then
      if o ≥ buf.length then .ok (buf, o)
      else match fuel with
        | 0 => .panic
        | fuel + 1 => do
          R.require (2 ≤ (← R.subU data.length c))
          let h ← R.slice data c (c + 2)
          if h = [0#8, 0#8] then pure (buf, o)
          else do
            let (c, buf, o) ← block data c buf o
            loop data fuel c buf o
    else .ok (buf, o)

/-- lznt1.rs:86-178 `Lznt1Context::decompress`: the output buffer and the uncompressed data size. -/
def decompress (data buf : List Byte) : R (List Byte × Nat) := loop data data.length 0 buf 0

end Keramics.Lznt1
