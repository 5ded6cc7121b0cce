import Verif.Base.R

/-!
Model of `keramics-checksums/src/crc32.rs`.
-/

namespace Keramics.Crc32

/-- `Crc32Context` and `ReversedCrc32Context` (identical fields), crc32.rs:19-34 and 91-106.
The `[u32; 256]` table is a list. -/
structure Ctx where
  polynomial : BitVec 32
  initialValue : BitVec 32
  checksum : BitVec 32
  table : List (BitVec 32)
  tableInitialized : Bool
deriving DecidableEq, Repr

/-- `new`, crc32.rs:38-46 and 110-118. -/
def Ctx.new (polynomial initialValue : BitVec 32) : Ctx where
  polynomial := polynomial
  initialValue := initialValue
  checksum := initialValue ^^^ 0xffffffff#32
  table := List.replicate 256 0#32
  tableInitialized := false

/-- `finalize`, crc32.rs:66-72 and 138-144. -/
def Ctx.finalize (c : Ctx) : BitVec 32 × Ctx :=
  (c.checksum ^^^ 0xffffffff#32, { c with checksum := c.initialValue ^^^ 0xffffffff#32 })

/-- One inner iteration of `Crc32Context::initialize_table`, crc32.rs:54-58. -/
def bitStep (polynomial checksum : BitVec 32) : BitVec 32 :=
  if checksum &&& 0x80000000#32 ≠ 0#32 then polynomial ^^^ (checksum <<< 1) else checksum <<< 1

/-- The inner loop of `Crc32Context::initialize_table` for one index, crc32.rs:51-60. -/
def tableEntry (polynomial : BitVec 32) (tableIndex : Nat) : BitVec 32 :=
  (List.range 8).foldl (fun c _ => bitStep polynomial c) (BitVec.ofNat 32 tableIndex <<< 24)

/-- `Crc32Context::initialize_table`, crc32.rs:49-63. -/
def Ctx.initializeTable (c : Ctx) : R Ctx := do
  let t ← (List.range 256).foldlM (fun t i => R.set t i (tableEntry c.polynomial i)) c.table
  return { c with table := t, tableInitialized := true }

/-- One iteration of the update loop, crc32.rs:82-85. -/
def updateByte (table : List (BitVec 32)) (checksum : BitVec 32) (b : Byte) : R (BitVec 32) := do
  let tableIndex := ((checksum >>> 24) ^^^ b.setWidth 32) &&& 0x000000ff#32
  let e ← R.get table tableIndex.toNat
  return e ^^^ (checksum <<< 8)

/-- `Crc32Context::update`, crc32.rs:75-88. -/
def Ctx.update (c : Ctx) (data : List Byte) : R Ctx := do
  let c ← if !c.tableInitialized then c.initializeTable else pure c
  let checksum ← data.foldlM (updateByte c.table) c.checksum
  return { c with checksum := checksum }

/-- One inner iteration of `ReversedCrc32Context::initialize_table`, crc32.rs:126-130. -/
def revBitStep (polynomial checksum : BitVec 32) : BitVec 32 :=
  if checksum &&& 1#32 ≠ 0#32 then polynomial ^^^ (checksum >>> 1) else checksum >>> 1

/-- The inner loop of `ReversedCrc32Context::initialize_table` for one index, crc32.rs:123-132. -/
def revTableEntry (polynomial : BitVec 32) (tableIndex : Nat) : BitVec 32 :=
  (List.range 8).foldl (fun c _ => revBitStep polynomial c) (BitVec.ofNat 32 tableIndex)

/-- `ReversedCrc32Context::initialize_table`, crc32.rs:121-135. -/
def Ctx.revInitializeTable (c : Ctx) : R Ctx := do
  let t ← (List.range 256).foldlM (fun t i => R.set t i (revTableEntry c.polynomial i)) c.table
  return { c with table := t, tableInitialized := true }

/-- One iteration of the reversed update loop, crc32.rs:154-157. -/
def revUpdateByte (table : List (BitVec 32)) (checksum : BitVec 32) (b : Byte) :
    R (BitVec 32) := do
  let tableIndex := (checksum ^^^ b.setWidth 32) &&& 0x000000ff#32
  let e ← R.get table tableIndex.toNat
  return e ^^^ (checksum >>> 8)

/-- `ReversedCrc32Context::update`, crc32.rs:147-160. -/
def Ctx.revUpdate (c : Ctx) (data : List Byte) : R Ctx := do
  let c ← if !c.tableInitialized then c.revInitializeTable else pure c
  let checksum ← data.foldlM (revUpdateByte c.table) c.checksum
  return { c with checksum := checksum }

end Keramics.Crc32
