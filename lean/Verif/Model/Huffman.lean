import Verif.Base.Ints

/-!
# keramics-compression/src/huffman.rs

The signed counters (`isize`) hold values below 2^25 for the code sizes in use (at most 20), so they
are modelled without overflow: `Nat` where they are never negative, `Int` for `left_value` and the
comparison in `decode_symbol`.
-/

namespace Keramics.Huffman

/-- huffman.rs:24-39: `maximum_code_size` is `largest + 1`. -/
structure Tree where
  largest : Nat
  symbols : List Nat
  counts : List Nat
deriving Repr, DecidableEq

/-- huffman.rs:43-52 -/
def new (numberOfSymbols largest : Nat) : Tree :=
  ⟨largest, List.replicate numberOfSymbols 0, List.replicate (largest + 1) 0⟩

/-- huffman.rs:67-77: count the codes of each size. -/
def countSizes (largest : Nat) : List Byte → List Nat → R (List Nat)
  | [], counts => .ok counts
  | size :: rest, counts => do
    R.require (size.toNat ≤ largest)
    let c ← R.get counts size.toNat
    let counts ← R.set counts size.toNat (c + 1)
    countSizes largest rest counts

/-- huffman.rs:84-92: check for over-subscription. -/
def checkLeft (counts : List Nat) : List Nat → Int → R Unit
  | [], _ => .ok ()
  | i :: is, left => do
    let c ← R.get counts i
    let left := 2 * left - (c : Int)
    R.require (0 ≤ left)
    checkLeft counts is left

/-- huffman.rs:109-113: the offset of the first symbol of each code size. -/
def offsets (counts : List Nat) : List Nat → List Nat → R (List Nat)
  | [], offs => .ok offs
  | i :: is, offs => do
    let a ← R.get offs i
    let c ← R.get counts i
    offsets counts is (offs ++ [a + c])

/-- huffman.rs:115-137: sort the symbols; `n` is the number of code sizes. -/
def place (n : Nat) : List Byte → Nat → List Nat → List Nat → R (List Nat)
  | [], _, _, symbols => .ok symbols
  | size :: rest, symbol, offs, symbols =>
    if size.toNat > 0 then do
      let o ← R.get offs size.toNat
      R.require (o ≤ n)
      let offs ← R.set offs size.toNat (o + 1)
      let symbols ← R.set symbols o symbol
      place n rest (symbol + 1) offs symbols
    else place n rest (symbol + 1) offs symbols

/-- huffman.rs:55-142 `build`. On an error the tree is left half built; every caller drops it. -/
def build (t : Tree) (sizes : List Byte) : R Tree := do
  R.require (sizes.length ≤ 65535)
  let counts ← countSizes t.largest sizes (List.replicate (t.largest + 1) 0)
  R.require ((← R.get counts 0) ≠ sizes.length)
  checkLeft counts (List.range' 1 t.largest) 1
  let offs ← offsets counts (List.range' 1 (t.largest - 1)) [0, 0]
  let symbols ← place sizes.length sizes 0 offs t.symbols
  pure { t with counts := counts, symbols := symbols }

/-- huffman.rs:150-164: `getBit` is `bitstream.get_value(1)`; a negative index cast to `usize` is out
of bounds. -/
def decodeLoop {σ : Type} (getBit : σ → R (Nat × σ)) (t : Tree) :
    List Nat → Nat → Nat → Nat → σ → R (Nat × σ)
  | [], _, _, _, _ => .err
  | l :: ls, first, code, index, st => do
    let (b, st) ← getBit st
    let code := (code <<< 1) ||| b
    let c ← R.get t.counts l
    if (code : Int) - c < first then do
      let i : Int := index + ((code : Int) - first)
      R.check (0 ≤ i)
      let s ← R.get t.symbols i.toNat
      pure (s, st)
    else decodeLoop getBit t ls ((first + c) <<< 1) code (index + c) st

/-- huffman.rs:145-169 `decode_symbol`. -/
def decodeSymbol {σ : Type} (getBit : σ → R (Nat × σ)) (t : Tree) (st : σ) : R (Nat × σ) :=
  decodeLoop getBit t (List.range' 1 t.largest) 0 0 0 st

end Keramics.Huffman
