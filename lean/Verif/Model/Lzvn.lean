import Verif.Model.Lz

/-!
Model of keramics-compression/src/lzvn.rs. Mediator debug output is left out.
-/

namespace Keramics.Lzvn

/-- lzvn.rs:23-35 `LzvnOppcodeType`: DistanceLarge, DistanceMedium, DistancePrevious, DistanceSmall,
EndOfStream, Invalid, LiteralLarge, LiteralSmall, MatchLarge, MatchSmall, None. -/
inductive OpType where
  | dl | dm | dp | ds | eos | inv | ll | ls | ml | ms | non
deriving DecidableEq

/-- lzvn.rs:38-295 `LZVN_OPPCODE_TYPES`, transcribed by script. -/
def opTypes : List OpType := [
   .ds, .ds, .ds, .ds, .ds, .ds, .eos, .dl, .ds, .ds, .ds, .ds, .ds, .ds, .non, .dl,
   .ds, .ds, .ds, .ds, .ds, .ds, .non, .dl, .ds, .ds, .ds, .ds, .ds, .ds, .inv, .dl,
   .ds, .ds, .ds, .ds, .ds, .ds, .inv, .dl, .ds, .ds, .ds, .ds, .ds, .ds, .inv, .dl,
   .ds, .ds, .ds, .ds, .ds, .ds, .inv, .dl, .ds, .ds, .ds, .ds, .ds, .ds, .inv, .dl,
   .ds, .ds, .ds, .ds, .ds, .ds, .dp, .dl, .ds, .ds, .ds, .ds, .ds, .ds, .dp, .dl,
   .ds, .ds, .ds, .ds, .ds, .ds, .dp, .dl, .ds, .ds, .ds, .ds, .ds, .ds, .dp, .dl,
   .ds, .ds, .ds, .ds, .ds, .ds, .dp, .dl, .ds, .ds, .ds, .ds, .ds, .ds, .dp, .dl,
   .inv, .inv, .inv, .inv, .inv, .inv, .inv, .inv, .inv, .inv, .inv, .inv, .inv, .inv, .inv, .inv,
   .ds, .ds, .ds, .ds, .ds, .ds, .dp, .dl, .ds, .ds, .ds, .ds, .ds, .ds, .dp, .dl,
   .ds, .ds, .ds, .ds, .ds, .ds, .dp, .dl, .ds, .ds, .ds, .ds, .ds, .ds, .dp, .dl,
   .dm, .dm, .dm, .dm, .dm, .dm, .dm, .dm, .dm, .dm, .dm, .dm, .dm, .dm, .dm, .dm,
   .dm, .dm, .dm, .dm, .dm, .dm, .dm, .dm, .dm, .dm, .dm, .dm, .dm, .dm, .dm, .dm,
   .ds, .ds, .ds, .ds, .ds, .ds, .dp, .dl, .ds, .ds, .ds, .ds, .ds, .ds, .dp, .dl,
   .inv, .inv, .inv, .inv, .inv, .inv, .inv, .inv, .inv, .inv, .inv, .inv, .inv, .inv, .inv, .inv,
   .ll, .ls, .ls, .ls, .ls, .ls, .ls, .ls, .ls, .ls, .ls, .ls, .ls, .ls, .ls, .ls,
   .ml, .ms, .ms, .ms, .ms, .ms, .ms, .ms, .ms, .ms, .ms, .ms, .ms, .ms, .ms, .ms
  ]

/-- What the `match` at lzvn.rs:352-439 leaves: stop the loop, or literal size, match size, distance
and the new compressed data offset. -/
inductive Head where
  | stop
  | go (literal matchSize distance c : Nat)

/-- lzvn.rs:352-439. -/
def readHead (data : List Byte) (op distance c : Nat) : R Head := do
  match ← R.get opTypes op with
  | .dl => do
    R.require (2 ≤ (← R.subU data.length c))
    let v ← R.get data c
    let w ← R.get data (c + 1)
    pure (.go ((op &&& 0xc0) >>> 6) (((op &&& 0x38) >>> 3) + 3) ((w.toNat <<< 8) ||| v.toNat) (c + 2))
  | .dm => do
    R.require (2 ≤ (← R.subU data.length c))
    let v ← R.get data c
    let w ← R.get data (c + 1)
    pure (.go ((op &&& 0x18) >>> 3) ((((op &&& 0x07) <<< 2) ||| (v.toNat &&& 0x03)) + 3)
      ((w.toNat <<< 6) ||| ((v.toNat &&& 0xfc) >>> 2)) (c + 2))
  | .dp => pure (.go ((op &&& 0xc0) >>> 6) (((op &&& 0x38) >>> 3) + 3) distance c)
  | .ds => do
    R.require (c < data.length)
    let v ← R.get data c
    pure (.go ((op &&& 0xc0) >>> 6) (((op &&& 0x38) >>> 3) + 3) (((op &&& 0x07) <<< 8) ||| v.toNat)
      (c + 1))
  | .ll => do
    R.require (c < data.length)
    let v ← R.get data c
    pure (.go (v.toNat + 16) 0 distance (c + 1))
  | .ls => pure (.go (op &&& 0x0f) 0 distance c)
  | .ml => do
    R.require (c < data.length)
    let v ← R.get data c
    pure (.go 0 (v.toNat + 16) distance (c + 1))
  | .ms => pure (.go 0 (op &&& 0x0f) distance c)
  | .eos => pure .stop
  | .non => pure (.go 0 0 distance c)
  | .inv => .err

/-- lzvn.rs:448-478: copy the literals; compressed offset, buffer, uncompressed offset. -/
def copyLiteral (data : List Byte) (size c : Nat) (buf : List Byte) (o : Nat) :
    R (Nat × List Byte × Nat) :=
  if size > 0 then do
    R.require (size ≤ (← R.subU data.length c))
    R.require (size ≤ (← R.subU buf.length o))
    let bytes ← R.slice data c (c + size)
    let buf ← R.splice buf o (o + size) bytes
    pure (c + size, buf, o + size)
  else pure (c, buf, o)

/-- lzvn.rs:479-507: copy the match; buffer, uncompressed offset. -/
def copyBack (size distance : Nat) (buf : List Byte) (o : Nat) : R (List Byte × Nat) :=
  if size > 0 then do
    R.require (distance ≤ o)
    R.require (size ≤ (← R.subU buf.length o))
    let buf ← Lz.copyMatch size buf o (o - distance)
    pure (buf, o + size)
  else pure (buf, o)

/-- lzvn.rs:333-508: the loop; each iteration consumes a byte, so `data.length` iterations suffice. -/
def loop (data : List Byte) : Nat → Nat → Nat → List Byte → Nat → R (List Byte × Nat)
  | fuel, distance, c, buf, o =>
    if c < data.length then
      if o ≥ buf.length then .ok (buf, o)
      else match fuel with
        | 0 => .panic
        | fuel + 1 => do
          let op ← R.get data c
          match ← readHead data op.toNat distance (c + 1) with
          | .stop => pure (buf, o)
          | .go literal matchSize distance c => do
            let (c, buf, o) ← copyLiteral data literal c buf o
            let (buf, o) ← copyBack matchSize distance buf o
            loop data fuel distance c buf o
    else .ok (buf, o)

/-- lzvn.rs:316-515 `LzvnContext::decompress`: the output buffer and the uncompressed data size. -/
def decompress (data buf : List Byte) : R (List Byte × Nat) := loop data data.length 0 0 buf 0

end Keramics.Lzvn
