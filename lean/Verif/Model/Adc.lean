import Verif.Model.Lz

/-!
Model of keramics-compression/src/adc.rs. Mediator debug output is left out.
-/

namespace Keramics.Adc

/-- adc.rs:107-128: match size, distance and the new compressed data offset. -/
def readMatch (data : List Byte) (op c : Nat) : R (Nat × Nat × Nat) :=
  if op &&& 0x40 ≠ 0 then do
    R.require (2 ≤ (← R.subU data.length c))
    let d ← u16be data c
    pure ((op &&& 0x3f) + 4, d, c + 2)
  else do
    R.require (c < data.length)
    let b ← R.get data c
    pure (((op &&& 0x3f) >>> 2) + 3, ((op &&& 0x03) <<< 8) ||| b.toNat, c + 1)

/-- adc.rs:64-161: one iteration; compressed offset, buffer and uncompressed offset. -/
def step (data : List Byte) (c : Nat) (buf : List Byte) (o : Nat) : R (Nat × List Byte × Nat) := do
  R.require (c < data.length)
  let b ← R.get data c
  let op := b.toNat
  let c := c + 1
  if op &&& 0x80 ≠ 0 then do
    let size := (op &&& 0x7f) + 1
    R.require (size ≤ (← R.subU data.length c))
    R.require (size ≤ (← R.subU buf.length o))
    let bytes ← R.slice data c (c + size)
    let buf ← R.splice buf o (o + size) bytes
    pure (c + size, buf, o + size)
  else do
    let (size, distance, c) ← readMatch data op c
    R.require (1 ≤ o)
    R.require (distance < o)
    R.require (size ≤ (← R.subU buf.length o))
    let buf ← Lz.copyMatch size buf o (o - distance - 1)
    pure (c, buf, o + size)

/-- adc.rs:55-162: the loop; each iteration consumes a byte, so `data.length` iterations suffice. -/
def loop (data : List Byte) : Nat → Nat → List Byte → Nat → R (List Byte × Nat)
  | fuel, c, buf, o =>
    if c < data.length then
      if o ≥ buf.length then .ok (buf, o)
      else match fuel with
        | 0 => .panic
        | fuel + 1 => do
          let (c, buf, o) ← step data c buf o
          loop data fuel c buf o
    else .ok (buf, o)

/-- adc.rs:41-169 `AdcContext::decompress`: the output buffer and the uncompressed data size. -/
def decompress (data buf : List Byte) : R (List Byte × Nat) := loop data data.length 0 buf 0

end Keramics.Adc
