import Verif.Spec.Huffman
import Verif.Spec.Lz

/-!
# The DEFLATE format (RFC 1951)

An encoder's output as a list of bits, and the bytes it stands for. Nothing here refers to the
decoder.
-/

namespace Keramics.Spec.Deflate
open Keramics.Spec.Huffman

/-- The lowest `k` bits of a number, least significant bit first (RFC 1951 section 3.1.1). -/
def lsb : Nat → Nat → List Bool
  | 0, _ => []
  | k + 1, v => decide (v % 2 = 1) :: lsb k (v / 2)

/-- The bits of a byte sequence in the order a reader sees them. -/
def byteBits (data : List Byte) : List Bool := data.flatMap fun b => lsb 8 b.toNat

/-! ## Matches: the table of RFC 1951 section 3.2.5, by its rule -/

/-- Extra bits of length code `257 + i`. -/
def lengthExtra (i : Nat) : Nat := if i < 8 ∨ i = 28 then 0 else (i - 4) / 4

/-- The shortest length of length code `257 + i`: each code starts where the one before ends, except
that the last stands for 258. -/
def lengthBase : Nat → Nat
  | 0 => 3
  | i + 1 => if i + 1 = 28 then 258 else lengthBase i + 2 ^ lengthExtra i

/-- Extra bits of distance code `j`. -/
def distanceExtra (j : Nat) : Nat := if j < 4 then 0 else (j - 2) / 2

/-- The shortest distance of distance code `j`. -/
def distanceBase : Nat → Nat
  | 0 => 1
  | j + 1 => distanceBase j + 2 ^ distanceExtra j

/-- A literal byte, or a match with length code `257 + i` and extra value `e`, distance code `j` and
extra value `f`. -/
inductive Token where
  | literal (b : Byte)
  | copy (i e j f : Nat)
deriving DecidableEq, Repr

/-- What a token does to the output so far. -/
def Token.op : Token → Lz.Op
  | literal b => .literal [b]
  | copy i e j f => .copy (distanceBase j + f) (lengthBase i + e)

/-- The bits of a token under a pair of Huffman codes. -/
def Token.bits (lit dist : List Nat) : Token → List Bool
  | literal b => codeBits lit b.toNat
  | copy i e j f => codeBits lit (257 + i) ++ lsb (lengthExtra i) e ++ codeBits dist j ++ lsb (distanceExtra j) f

/-- The token can be written with the codes. -/
def Token.wf (lit dist : List Nat) : Token → Prop
  | literal b => Coded lit b.toNat
  | copy i e j f => i < 29 ∧ e < 2 ^ lengthExtra i ∧ Coded lit (257 + i) ∧
      j < 30 ∧ f < 2 ^ distanceExtra j ∧ Coded dist j

/-- The compressed data of a block: the tokens and the end-of-block code. -/
def tokensBits (lit dist : List Nat) (ts : List Token) : List Bool :=
  ts.flatMap (Token.bits lit dist) ++ codeBits lit 256

/-! ## Fixed codes: RFC 1951 section 3.2.6 -/

def fixedLit : List Nat :=
  List.replicate 144 8 ++ List.replicate 112 9 ++ List.replicate 24 7 ++ List.replicate 8 8

def fixedDist : List Nat := List.replicate 32 5

/-! ## Dynamic codes: RFC 1951 section 3.2.7 -/

/-- The order in which the lengths of the code length codes are stored. -/
def order : List Nat := [16, 17, 18, 0, 8, 7, 9, 6, 10, 5, 11, 4, 12, 3, 13, 2, 14, 1, 15]

/-- An element of the sequence of code lengths. -/
inductive Item where
  | len (l : Nat)
  | repeat (n : Nat)
  | zeros (n : Nat)
  | zerosLong (n : Nat)
deriving DecidableEq, Repr

/-- The code length symbol of an item. -/
def Item.symbol : Item → Nat
  | len l => l
  | .repeat _ => 16
  | zeros _ => 17
  | zerosLong _ => 18

/-- The number of code lengths an item gives. -/
def Item.size : Item → Nat
  | len _ => 1
  | .repeat n => n
  | zeros n => n
  | zerosLong n => n

def Item.ok : Item → Prop
  | len l => l ≤ 15
  | .repeat n => 3 ≤ n ∧ n ≤ 6
  | zeros n => 3 ≤ n ∧ n ≤ 10
  | zerosLong n => 11 ≤ n ∧ n ≤ 138

def Item.extra : Item → List Bool
  | len _ => []
  | .repeat n => lsb 2 (n - 3)
  | zeros n => lsb 3 (n - 3)
  | zerosLong n => lsb 7 (n - 11)

/-- The lengths given so far, followed by those of the item. -/
def Item.run (out : List Nat) : Item → List Nat
  | len l => out ++ [l]
  | .repeat n => out ++ List.replicate n (out.getLastD 0)
  | zeros n => out ++ List.replicate n 0
  | zerosLong n => out ++ List.replicate n 0

/-- The code lengths a sequence of items gives. -/
def expand (items : List Item) : List Nat := items.foldl Item.run []

/-- The description of the codes of a dynamic block: the numbers of literal/length codes, distance
codes and stored code length codes, the lengths of the code length codes (by symbol), and the code
lengths. -/
structure Dynamic where
  literals : Nat
  distances : Nat
  codes : Nat
  lengths : List Nat
  items : List Item

namespace Dynamic

def lit (d : Dynamic) : List Nat := (expand d.items).take d.literals
def dist (d : Dynamic) : List Nat := (expand d.items).drop d.literals

def bits (d : Dynamic) : List Bool :=
  lsb 5 (d.literals - 257) ++ lsb 5 (d.distances - 1) ++ lsb 4 (d.codes - 4) ++
  (order.take d.codes).flatMap (fun s => lsb 3 (d.lengths.getD s 0)) ++
  d.items.flatMap fun it => codeBits d.lengths it.symbol ++ it.extra

/-- What the RFC asks of a description, but for the distance code. -/
structure wfBase (d : Dynamic) : Prop where
  literals : 257 ≤ d.literals ∧ d.literals ≤ 286
  distances : 1 ≤ d.distances ∧ d.distances ≤ 30
  codes : 4 ≤ d.codes ∧ d.codes ≤ 19
  lengths : d.lengths.length = 19
  small : ∀ l ∈ d.lengths, l ≤ 7
  unstored : ∀ s ∈ order.drop d.codes, d.lengths.getD s 0 = 0
  valid : Valid 15 d.lengths
  ok : ∀ it ∈ d.items, it.ok ∧ Coded d.lengths it.symbol
  start : ∀ n, d.items.head? ≠ some (.repeat n)
  total : (expand d.items).length = d.literals + d.distances
  litValid : Valid 15 d.lit
  endCode : Coded d.lit 256

/-- The distance lengths describe a code. -/
def distCode (d : Dynamic) : Prop := Valid 15 d.dist

/-- One distance code of zero bits: no distance codes are used at all. -/
def noDist (d : Dynamic) : Prop := d.dist = [0]

def wf (d : Dynamic) : Prop := d.wfBase ∧ (d.distCode ∨ d.noDist)

end Dynamic

/-! ## Blocks -/

/-- A stored block with the bits skipped before its length, a block with the fixed codes, or a block
with its own codes. -/
inductive Block where
  | stored (pad : List Bool) (bytes : List Byte)
  | fixed (ts : List Token)
  | dynamic (d : Dynamic) (ts : List Token)

def Block.type : Block → Nat
  | stored .. => 0
  | fixed .. => 1
  | dynamic .. => 2

def Block.body : Block → List Bool
  | stored pad bytes => pad ++ lsb 16 bytes.length ++ lsb 16 (65535 - bytes.length) ++ byteBits bytes
  | fixed ts => tokensBits fixedLit fixedDist ts
  | dynamic d ts => d.bits ++ tokensBits d.lit d.dist ts

def Block.bits (last : Bool) (b : Block) : List Bool := last :: lsb 2 b.type ++ b.body

def Block.ops : Block → List Lz.Op
  | stored _ bytes => [.literal bytes]
  | fixed ts => ts.map Token.op
  | dynamic _ ts => ts.map Token.op

/-- The block can stand at bit position `pos`. -/
def Block.wf (pos : Nat) : Block → Prop
  | stored pad bytes => pad.length = (8 - (pos + 3) % 8) % 8 ∧ bytes.length ≤ 65535
  | fixed ts => ∀ t ∈ ts, t.wf fixedLit fixedDist
  | dynamic d ts => d.wf ∧ ∀ t ∈ ts, t.wf d.lit d.dist

/-- The bits of a sequence of blocks; the last one is marked. -/
def encode : List Block → List Bool
  | [] => []
  | [b] => b.bits true
  | b :: bs => b.bits false ++ encode bs

/-- Every block is well formed at its position. -/
def Wf : Nat → List Block → Prop
  | _, [] => True
  | pos, b :: bs => b.wf pos ∧ Wf (pos + (b.bits false).length) bs

/-- The matches stay within the output. -/
def Ok (bs : List Block) : Prop := Lz.Ok [] (bs.flatMap Block.ops)

/-- The bytes a sequence of blocks stands for. -/
def denote (bs : List Block) : List Byte := Lz.run [] (bs.flatMap Block.ops)

end Keramics.Spec.Deflate
