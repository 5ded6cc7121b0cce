import Verif.Spec.Deflate
import Verif.Spec.Lzvn

/-!
# The LZFSE format

After Apple's reference implementation: a stream of blocks with a marker each, of which the coded
blocks (version 2) use a finite state entropy code. The definitions describe what an encoder writes;
nothing here refers to the decoder.
-/

namespace Keramics.Spec.Lzfse
open Keramics.Spec.Huffman (bits)
open Keramics.Spec.Deflate (lsb byteBits)

/-! ## Finite state entropy coding

A code has `N` states. Each symbol has a frequency, and as many states: those of symbol 0 come first,
then those of symbol 1, and so on. To put symbol `x` of frequency `f` in front of a code that starts in
state `s`, the number `N + s` is shifted right until it is below `2 f` (it is then at least `f`); the
bits shifted out are written, and what is left selects one of the states of the symbol. -/

/-- The first state of a symbol. -/
def start (freqs : List Nat) (x : Nat) : Nat := (freqs.take x).sum

/-- How many bits of `n` to shift out until it is below `2 f`; no more than 10 as there are no more than
1024 states. -/
def shift (f n : Nat) : Nat := ((List.range 11).find? fun k => n / 2 ^ k < 2 * f).getD 0

/-- The state that stands for symbol `x` followed by state `s`. -/
def state (N : Nat) (freqs : List Nat) (x s : Nat) : Nat :=
  let f := freqs.getD x 0
  start freqs x + ((N + s) / 2 ^ shift f (N + s) - f)

/-- The bits that are written for it. -/
def stateBits (N : Nat) (freqs : List Nat) (x s : Nat) : List Bool :=
  bits (shift (freqs.getD x 0) (N + s)) (N + s)

/-- The frequencies of a code with `N` states and `n` symbols. -/
def CodeOk (N n : Nat) (freqs : List Nat) : Prop := freqs.length = n ∧ freqs.sum ≤ N ∧ ∀ f ∈ freqs, f ≤ 1047

/-- A symbol that the code has. -/
def Has (freqs : List Nat) (x : Nat) : Prop := x < freqs.length ∧ freqs.getD x 0 ≠ 0

/-! ## Values

A value is a symbol and a number of extra bits. -/

structure Value where
  symbol : Nat
  extra : Nat
deriving DecidableEq, Repr

/-- The number of extra bits of literal counts, match lengths and distances. -/
def lExtra (x : Nat) : Nat := if x < 16 then 0 else [2, 3, 5, 8].getD (x - 16) 0
def mExtra (x : Nat) : Nat := if x < 16 then 0 else [3, 5, 8, 11].getD (x - 16) 0
def dExtra (x : Nat) : Nat := x / 4

/-- The smallest value of a symbol: each symbol starts where the one before ends. -/
def base (extra : Nat → Nat) : Nat → Nat
  | 0 => 0
  | x + 1 => base extra x + 2 ^ extra x

def Value.value (extra : Nat → Nat) (v : Value) : Nat := base extra v.symbol + v.extra

def Value.Ok (extra : Nat → Nat) (freqs : List Nat) (v : Value) : Prop :=
  Has freqs v.symbol ∧ v.extra < 2 ^ extra v.symbol

/-- The bits of a value in front of state `s`: those of the code, then the extra bits. -/
def Value.bits (N : Nat) (extra : Nat → Nat) (freqs : List Nat) (s : Nat) (v : Value) : List Bool :=
  stateBits N freqs v.symbol s ++ Huffman.bits (extra v.symbol) v.extra

/-! ## Coded blocks -/

/-- A literal count, a match length and a distance (0 for the distance before). -/
structure Step where
  l : Value
  m : Value
  d : Value
deriving DecidableEq, Repr

structure States where
  l : Nat
  m : Nat
  d : Nat
deriving DecidableEq, Repr

structure Four where
  a : Nat
  b : Nat
  c : Nat
  d : Nat
deriving DecidableEq, Repr

/-- A coded block: the frequencies of the four codes, the literals, the steps, the states that the codes
end in, and how the bits are stored: the number of unused bits in the last byte and the bytes. -/
structure Coded where
  lFreqs : List Nat
  mFreqs : List Nat
  dFreqs : List Nat
  literalFreqs : List Nat
  literals : List Byte
  steps : List Step
  literalEnd : Four
  stepEnd : States
  literalUnused : Nat
  literalData : List Byte
  stepUnused : Nat
  stepData : List Byte
  table : List Byte
deriving DecidableEq

/-- The literals use four states in turn: the states before the literals, the first for the first
literal, and their bits. -/
def codeLiterals (freqs : List Nat) (last : Four) : List Byte → Four × List Bool
  | [] => (last, [])
  | x :: xs =>
    let r := codeLiterals freqs last xs
    (⟨state 1024 freqs x.toNat r.1.d, r.1.a, r.1.b, r.1.c⟩, stateBits 1024 freqs x.toNat r.1.d ++ r.2)

/-- The three values of a step have a state each. -/
def codeSteps (c : Coded) : List Step → States × List Bool
  | [] => (c.stepEnd, [])
  | t :: ts =>
    let r := codeSteps c ts
    (⟨state 64 c.lFreqs t.l.symbol r.1.l, state 64 c.mFreqs t.m.symbol r.1.m, state 256 c.dFreqs t.d.symbol r.1.d⟩,
      t.l.bits 64 lExtra c.lFreqs r.1.l ++ t.m.bits 64 mExtra c.mFreqs r.1.m ++
        t.d.bits 256 dExtra c.dFreqs r.1.d ++ r.2)

/-- The bits of a byte sequence from its end to its start, most significant bit first. -/
def backBits (data : List Byte) : List Bool := data.reverse.flatMap fun b => bits 8 b.toNat

/-- The bytes hold the bits, after the unused ones. -/
def Holds (unused : Nat) (data : List Byte) (bs : List Bool) : Prop := bs <+: (backBits data).drop unused

/-- The code of a frequency, lowest bit first. -/
def frequencyCode (f : Nat) : List Bool :=
  if f = 0 then [false, false]
  else if f = 1 then [false, true]
  else if f = 2 then [true, false, false]
  else if f = 3 then [true, false, true]
  else if f < 8 then [true, true, false] ++ lsb 2 (f - 4)
  else if f < 24 then [true, true, true, false] ++ lsb 4 (f - 8)
  else [true, true, true, true] ++ lsb 10 (f - 24)

/-- The bytes hold the codes of the frequencies, lowest bit first, and less than a byte of padding. -/
def TableOk (freqs : List Nat) (table : List Byte) : Prop :=
  freqs.flatMap frequencyCode <+: byteBits table ∧ (byteBits table).length < (freqs.flatMap frequencyCode).length + 8

def Step.Ok (c : Coded) (t : Step) : Prop :=
  t.l.Ok lExtra c.lFreqs ∧ t.m.Ok mExtra c.mFreqs ∧ t.d.Ok dExtra c.dFreqs

def Four.Below (N : Nat) (s : Four) : Prop := s.a < N ∧ s.b < N ∧ s.c < N ∧ s.d < N

/-- The number of literals of the steps. -/
def used : List Step → Nat
  | [] => 0
  | t :: ts => t.l.value lExtra + used ts

structure Coded.Wf (c : Coded) : Prop where
  l : CodeOk 64 20 c.lFreqs
  m : CodeOk 64 20 c.mFreqs
  d : CodeOk 256 64 c.dFreqs
  literal : CodeOk 1024 256 c.literalFreqs
  four : c.literals.length % 4 = 0
  count : c.literals.length ≤ 40000
  has : ∀ x ∈ c.literals, Has c.literalFreqs x.toNat
  steps : ∀ t ∈ c.steps, t.Ok c
  stepCount : c.steps.length ≤ 10000
  used : used c.steps ≤ c.literals.length
  literalEnd : c.literalEnd.Below 1024
  stepEnd : c.stepEnd.l < 64 ∧ c.stepEnd.m < 64 ∧ c.stepEnd.d < 256
  unused : c.literalUnused ≤ 7 ∧ c.stepUnused ≤ 7
  literalData : Holds c.literalUnused c.literalData (codeLiterals c.literalFreqs c.literalEnd c.literals).2
  stepData : Holds c.stepUnused c.stepData (codeSteps c c.steps).2
  sizes : c.literalData.length < 2 ^ 20 ∧ c.stepData.length < 2 ^ 20
  table : TableOk (c.lFreqs ++ c.mFreqs ++ c.dFreqs ++ c.literalFreqs) c.table

/-- What the steps do: `literals` are those not used yet, `before` is the distance before. -/
def ops : List Byte → Nat → List Step → List Lz.Op
  | _, _, [] => []
  | literals, before, t :: ts =>
    let n := t.l.value lExtra
    let d := if t.d.value dExtra = 0 then before else t.d.value dExtra
    .literal (literals.take n) :: .copy d (t.m.value mExtra) :: ops (literals.drop n) d ts

/-- A number as `k` bytes, lowest first. -/
def le : Nat → Nat → List Byte
  | 0, _ => []
  | k + 1, v => BitVec.ofNat 8 (v % 256) :: le k (v / 256)

/-- The header after the marker and the size, and the data of a coded block. -/
def Coded.encode (c : Coded) : List Byte :=
  let s := (codeLiterals c.literalFreqs c.literalEnd c.literals).1
  let t := (codeSteps c c.steps).1
  le 8 (c.literals.length + 2 ^ 20 * c.literalData.length + 2 ^ 40 * c.steps.length + 2 ^ 60 * (7 - c.literalUnused)) ++
  le 8 (s.a + 2 ^ 10 * s.b + 2 ^ 20 * s.c + 2 ^ 30 * s.d + 2 ^ 40 * c.stepData.length + 2 ^ 60 * (7 - c.stepUnused)) ++
  le 8 (32 + c.table.length + 2 ^ 32 * t.l + 2 ^ 42 * t.m + 2 ^ 52 * t.d) ++
  c.table ++ c.literalData ++ c.stepData

/-- The same block in version 1 of the format: all numbers and frequencies are stored as they are, the
numbers of unused bits as their negatives. -/
def Coded.encodeV1 (c : Coded) : List Byte :=
  let s := (codeLiterals c.literalFreqs c.literalEnd c.literals).1
  let t := (codeSteps c c.steps).1
  le 4 (c.literalData.length + c.stepData.length) ++ le 4 c.literals.length ++ le 4 c.steps.length ++
  le 4 c.literalData.length ++ le 4 c.stepData.length ++
  le 4 ((2 ^ 32 - c.literalUnused) % 2 ^ 32) ++ le 2 s.a ++ le 2 s.b ++ le 2 s.c ++ le 2 s.d ++
  le 4 ((2 ^ 32 - c.stepUnused) % 2 ^ 32) ++ le 2 t.l ++ le 2 t.m ++ le 2 t.d ++
  (c.lFreqs ++ c.mFreqs ++ c.dFreqs ++ c.literalFreqs).flatMap (le 2) ++
  c.literalData ++ c.stepData

/-! ## Streams -/

inductive Block where
  | raw (bytes : List Byte)
  | lzvn (tokens : List Lzvn.Token) (rest : List Byte)
  | coded (c : Coded)

/-- The bytes after a block, given those before it. LZVN blocks do not refer to the bytes before
them. -/
def Block.run (out : List Byte) : Block → List Byte
  | raw bytes => out ++ bytes
  | lzvn tokens _ => out ++ Lzvn.denote tokens
  | coded c => Lz.run out (ops c.literals 0 c.steps)

/-- Blocks follow their format; matches refer to bytes that exist. -/
def Block.Ok (out : List Byte) : Block → Prop
  | raw _ => True
  | lzvn tokens rest => Lzvn.Valid tokens ∧ (rest = [] ∨ rest.head? = some 6#8) ∧
      (Lzvn.encode tokens ++ rest).length < 2 ^ 32
  | coded c => c.Wf ∧ Lz.Ok out (ops c.literals 0 c.steps)

/-- A block: its marker, the number of bytes it stands for, and its data. -/
def Block.encode (out : List Byte) (b : Block) : List Byte :=
  let size := (b.run out).length - out.length
  match b with
  | raw bytes => [0x62#8, 0x76#8, 0x78#8, 0x2d#8] ++ le 4 size ++ bytes
  | lzvn tokens rest => [0x62#8, 0x76#8, 0x78#8, 0x6e#8] ++ le 4 size ++
      le 4 (Lzvn.encode tokens ++ rest).length ++ (Lzvn.encode tokens ++ rest)
  | coded c => [0x62#8, 0x76#8, 0x78#8, 0x32#8] ++ le 4 size ++ c.encode

/-- What a stream stands for, after `out`. -/
def run (out : List Byte) : List Block → List Byte
  | [] => out
  | b :: bs => run (b.run out) bs

def Ok (out : List Byte) : List Block → Prop
  | [] => True
  | b :: bs => b.Ok out ∧ Ok (b.run out) bs

/-- The blocks and the end of stream marker. -/
def encode (out : List Byte) : List Block → List Byte
  | [] => [0x62#8, 0x76#8, 0x78#8, 0x24#8]
  | b :: bs => b.encode out ++ encode (b.run out) bs

end Keramics.Spec.Lzfse
