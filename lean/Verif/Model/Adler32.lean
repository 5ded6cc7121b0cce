import Verif.Base.R

/-!
Model of `keramics-checksums/src/adler32.rs`.
-/

namespace Keramics.Adler32

/-- `Adler32Context`, adler32.rs:19-25. -/
structure Ctx where
  initialValue : BitVec 32
  checksum : BitVec 32
deriving DecidableEq, Repr

/-- `Adler32Context::new`, adler32.rs:29-34. -/
def Ctx.new (initialValue : BitVec 32) : Ctx := ⟨initialValue, initialValue⟩

/-- `Adler32Context::finalize`, adler32.rs:37-43: returns the checksum and resets the context. -/
def Ctx.finalize (c : Ctx) : BitVec 32 × Ctx := (c.checksum, { c with checksum := c.initialValue })

/-- `a + b` on `u32` with overflow check. -/
def add32 (a b : BitVec 32) : R (BitVec 32) :=
  if a.toNat + b.toNat < 2 ^ 32 then .ok (a + b) else .panic

/-- `a - b` on `u32` with underflow check. -/
def sub32 (a b : BitVec 32) : R (BitVec 32) :=
  if b.toNat ≤ a.toNat then .ok (a - b) else .panic

/-- adler32.rs:48-50 and 53-55: `h = value >> 16; value &= 0xffff; value += (h << 4) - h`. -/
def foldHigh (value : BitVec 32) : R (BitVec 32) := do
  let high := value >>> 16
  let d ← sub32 (high <<< 4) high
  add32 (value &&& 0x0000ffff#32) d

/-- `Adler32Context::mod_65521`, adler32.rs:47-61. -/
def mod65521 (value : BitVec 32) : R (BitVec 32) := do
  let value ← foldHigh value
  let value ← if value.toNat > 65521 then foldHigh value else pure value
  if value.toNat ≥ 65521 then sub32 value 65521#32 else pure value

/-- One loop iteration, adler32.rs:73-74 and 83-84 (`wrapping_add`). -/
def step (p : BitVec 32 × BitVec 32) (b : Byte) : BitVec 32 × BitVec 32 :=
  let lower := p.1 + b.setWidth 32
  (lower, p.2 + lower)

/-- Sum one batch of bytes and reduce both words, adler32.rs:72-79 and 82-89. -/
def batch (p : BitVec 32 × BitVec 32) (bs : List Byte) : R (BitVec 32 × BitVec 32) := do
  let q := bs.foldl step p
  let lower ← mod65521 q.1
  let upper ← mod65521 q.2
  return (lower, upper)

/-- The two loops of `update`, adler32.rs:70-90: while more than 5552 bytes remain a batch of
exactly 5552 is taken; a non-empty rest is the last batch. `data[data_offset..]` is the list. -/
def loop (p : BitVec 32 × BitVec 32) (data : List Byte) : R (BitVec 32 × BitVec 32) :=
  if 5552 < data.length then do
    let p ← batch p (data.take 5552)
    loop p (data.drop 5552)
  else if 0 < data.length then batch p data
  else pure p
termination_by data.length
decreasing_by simp; omega

/-- `Adler32Context::update`, adler32.rs:64-92. -/
def Ctx.update (c : Ctx) (data : List Byte) : R Ctx := do
  let r ← loop (c.checksum &&& 0x0000ffff#32, c.checksum >>> 16) data
  return { c with checksum := (r.2 <<< 16) ||| r.1 }

end Keramics.Adler32
