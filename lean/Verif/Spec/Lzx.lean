import Verif.Spec.Huffman
import Verif.Spec.Lz

/-!
# The LZX format with a window of 32 KiB (as in WIM and WOF compressed data)

An encoder's output as a list of bits, and the bytes it stands for. Nothing here refers to the
decoder.
-/

namespace Keramics.Spec.Lzx
open Keramics.Spec.Huffman

/-- The bits of the 16-bit little-endian words of a byte sequence, most significant bit first. An odd
last byte has no bits. -/
def wordBits : List Byte → List Bool
  | a :: b :: rest => bits 8 b.toNat ++ bits 8 a.toNat ++ wordBits rest
  | _ => []

/-- A number as `k` bytes, lowest first. -/
def le : Nat → Nat → List Byte
  | 0, _ => []
  | k + 1, v => BitVec.ofNat 8 (v % 256) :: le k (v / 256)

/-! ## Matches -/

/-- The number of footer bits of a position slot. -/
def footer (slot : Nat) : Nat := if slot < 4 then 0 else (slot - 2) / 2

/-- The first formatted offset of a position slot: each slot starts where the one before ends. -/
def base : Nat → Nat
  | 0 => 0
  | slot + 1 => base slot + 2 ^ footer slot

/-- The three most recent distances. -/
structure Recent where
  r0 : Nat
  r1 : Nat
  r2 : Nat
deriving DecidableEq, Repr

/-- A literal byte, or a match: position slot, footer value, length header, and the length footer used
if the header is 7. -/
inductive Token where
  | literal (b : Byte)
  | copy (slot e h l : Nat)
deriving DecidableEq, Repr

/-- The length of a match. -/
def matchLength (h l : Nat) : Nat := if h = 7 then l + 9 else h + 2

/-- The recent distances after a match; its distance is the first of them. Slots 0 to 2 swap a recent
distance to the front, other slots push a new one. -/
def Recent.next (r : Recent) (slot e : Nat) : Recent :=
  match slot with
  | 0 => r
  | 1 => ⟨r.r1, r.r0, r.r2⟩
  | 2 => ⟨r.r2, r.r1, r.r0⟩
  | _ => ⟨base slot + e - 2, r.r0, r.r1⟩

def Token.recent (r : Recent) : Token → Recent
  | literal _ => r
  | copy slot e _ _ => r.next slot e

def Token.op (r : Recent) : Token → Lz.Op
  | literal b => .literal [b]
  | copy slot e h l => .copy (r.next slot e).r0 (matchLength h l)

/-- What a sequence of tokens does to the output. -/
def tokenOps : Recent → List Token → List Lz.Op
  | _, [] => []
  | r, t :: ts => t.op r :: tokenOps (t.recent r) ts

/-- The number of bytes a sequence of tokens gives. -/
def tokensSize : List Token → Nat
  | [] => 0
  | .literal _ :: ts => 1 + tokensSize ts
  | .copy _ _ h l :: ts => matchLength h l + tokensSize ts

def tokensRecent (r : Recent) (ts : List Token) : Recent := ts.foldl Token.recent r

/-- The footer of a match: in an aligned block the lowest three bits have a code of their own, if there
are that many. -/
def footerBits (aligned : Option (List Nat)) (slot e : Nat) : List Bool :=
  match aligned with
  | none => bits (footer slot) e
  | some al => if 3 ≤ footer slot then bits (footer slot - 3) (e / 8) ++ codeBits al (e % 8) else bits (footer slot) e

/-- The bits of a token: the main code, the length code and the aligned offset code. -/
def Token.bits (main len : List Nat) (aligned : Option (List Nat)) : Token → List Bool
  | literal b => codeBits main b.toNat
  | copy slot e h l => codeBits main (256 + 8 * slot + h) ++ (if h = 7 then codeBits len l else []) ++ footerBits aligned slot e

/-- The aligned offset code has a code for the lowest three bits. -/
def footerCoded (aligned : Option (List Nat)) (slot e : Nat) : Prop :=
  match aligned with
  | none => True
  | some al => 3 ≤ footer slot → Coded al (e % 8)

/-- The token can be written with the codes. -/
def Token.wf (main len : List Nat) (aligned : Option (List Nat)) : Token → Prop
  | literal b => Coded main b.toNat
  | copy slot e h l => slot < 30 ∧ e < 2 ^ footer slot ∧ h ≤ 7 ∧ Coded main (256 + 8 * slot + h) ∧
      (h = 7 → Coded len l) ∧ footerCoded aligned slot e

/-! ## Code lengths: the differences with those of the block before, under a code of their own -/

/-- An element of a sequence of code lengths: one difference, a run of zeros, or a run of 4 or 5 equal
lengths given by one difference. -/
inductive Item where
  | diff (d : Nat)
  | zeros (n : Nat)
  | zerosLong (n : Nat)
  | same (n d : Nat)
deriving DecidableEq, Repr

def Item.ok (pre : List Nat) : Item → Prop
  | diff d => d ≤ 16 ∧ Coded pre d
  | zeros n => 4 ≤ n ∧ n ≤ 19 ∧ Coded pre 17
  | zerosLong n => 20 ≤ n ∧ n ≤ 51 ∧ Coded pre 18
  | same n d => 4 ≤ n ∧ n ≤ 5 ∧ d ≤ 16 ∧ Coded pre 19 ∧ Coded pre d

def Item.bits (pre : List Nat) : Item → List Bool
  | diff d => codeBits pre d
  | zeros n => codeBits pre 17 ++ Huffman.bits 4 (n - 4)
  | zerosLong n => codeBits pre 18 ++ Huffman.bits 5 (n - 20)
  | same n d => codeBits pre 19 ++ Huffman.bits 1 (n - 4) ++ codeBits pre d

/-- The lengths given so far, followed by those of the item: a length is the one of the block before
less the difference, modulo 17. -/
def Item.run (old out : List Nat) : Item → List Nat
  | diff d => out ++ [(old.getD out.length 0 + 17 - d) % 17]
  | zeros n => out ++ List.replicate n 0
  | zerosLong n => out ++ List.replicate n 0
  | same n d => out ++ List.replicate n ((old.getD out.length 0 + 17 - d) % 17)

/-- A description of code lengths: the lengths of the code of the differences, and the items. -/
structure Lengths where
  pre : List Nat
  items : List Item

namespace Lengths

/-- The code lengths it gives, after those of the block before. -/
def expand (old : List Nat) (d : Lengths) : List Nat := d.items.foldl (Item.run old) []

def bits (d : Lengths) : List Bool := d.pre.flatMap (Huffman.bits 4) ++ d.items.flatMap (Item.bits d.pre)

structure wf (old : List Nat) (d : Lengths) : Prop where
  pre : d.pre.length = 20
  valid : Valid 15 d.pre
  items : ∀ it ∈ d.items, it.ok d.pre
  total : (d.expand old).length = old.length

end Lengths

/-! ## Blocks -/

/-- What a block leaves to the next: the lengths of the main code (literals; matches) and of the length
code, and the recent distances. -/
structure State where
  literals : List Nat
  matches_ : List Nat
  lengths : List Nat
  recent : Recent

/-- At the start all code lengths are 0 and the recent distances are 1. -/
def State.start : State := ⟨List.replicate 256 0, List.replicate 240 0, List.replicate 249 0, ⟨1, 1, 1⟩⟩

/-- A block of matches and literals with the descriptions of its codes (an aligned block has the lengths
of the aligned offset code), or an uncompressed block with the padding before it, the recent distances
and the padding after it. -/
inductive Body where
  | coded (aligned : Option (List Nat)) (literals matches_ lengths : Lengths) (ts : List Token)
  | raw (pad : List Bool) (r : Recent) (bytes : List Byte) (after : List Byte)

/-- A block; the size 32768 may be given by a single bit. -/
structure Block where
  short : Bool
  body : Body

def Body.type : Body → Nat
  | coded none .. => 1
  | coded (some _) .. => 2
  | raw .. => 3

/-- The number of bytes of a block. -/
def Body.size : Body → Nat
  | coded _ _ _ _ ts => tokensSize ts
  | raw _ _ bytes _ => bytes.length

/-- The state after a block. -/
def Body.next (st : State) : Body → State
  | coded _ a b c ts => ⟨a.expand st.literals, b.expand st.matches_, c.expand st.lengths, tokensRecent st.recent ts⟩
  | raw _ r _ _ => { st with recent := r }

def Body.ops (st : State) : Body → List Lz.Op
  | coded _ _ _ _ ts => tokenOps st.recent ts
  | raw _ _ bytes _ => [.literal bytes]

/-- The bits of the lengths of the aligned offset code. -/
def alignedBits : Option (List Nat) → List Bool
  | none => []
  | some al => al.flatMap (bits 3)

def Body.bits (st : State) (body : Body) : List Bool :=
  match body with
  | coded al a b c ts => alignedBits al ++ a.bits ++ b.bits ++ c.bits ++
      ts.flatMap (Token.bits (a.expand st.literals ++ b.expand st.matches_) (c.expand st.lengths) al)
  | raw pad r bytes after => pad ++ wordBits (le 4 r.r0 ++ le 4 r.r1 ++ le 4 r.r2 ++ bytes ++ after)

/-- The bits of the size of a block. -/
def Block.sizeBits (b : Block) : List Bool := if b.short then [true] else false :: bits 16 b.body.size

def Block.bits (st : State) (b : Block) : List Bool := Huffman.bits 3 b.body.type ++ b.sizeBits ++ b.body.bits st

def alignedWf : Option (List Nat) → Prop
  | none => True
  | some al => al.length = 8 ∧ Valid 7 al

/-- The block can follow, with its header ending at bit position `pos`: between 1 and 16 bits of padding
come before uncompressed data, and a byte after it if its length is odd. A length code without any
symbol is allowed if it is not used. -/
def Body.wf (pos : Nat) (st : State) : Body → Prop
  | coded al a b c ts => alignedWf al ∧ a.wf st.literals ∧ b.wf st.matches_ ∧ c.wf st.lengths ∧
      Valid 16 (a.expand st.literals ++ b.expand st.matches_) ∧
      (Valid 16 (c.expand st.lengths) ∨ ∀ l ∈ c.expand st.lengths, l = 0) ∧
      ∀ t ∈ ts, t.wf (a.expand st.literals ++ b.expand st.matches_) (c.expand st.lengths) al
  | raw pad r bytes after => pad.length = 16 - pos % 16 ∧ 1 ≤ r.r0 ∧ 1 ≤ r.r1 ∧ 1 ≤ r.r2 ∧
      r.r0 < 2 ^ 32 ∧ r.r1 < 2 ^ 32 ∧ r.r2 < 2 ^ 32 ∧ after.length = bytes.length % 2

def Block.wf (pos : Nat) (st : State) (b : Block) : Prop :=
  1 ≤ b.body.size ∧ (if b.short then b.body.size = 32768 else b.body.size < 65536) ∧
  b.body.wf (pos + 3 + b.sizeBits.length) st

/-- The bits of a sequence of blocks. -/
def encode : State → List Block → List Bool
  | _, [] => []
  | st, b :: bs => b.bits st ++ encode (b.body.next st) bs

/-- Every block is well formed at its bit position. -/
def Wf : Nat → State → List Block → Prop
  | _, _, [] => True
  | pos, st, b :: bs => b.wf pos st ∧ Wf (pos + (b.bits st).length) (b.body.next st) bs

def ops : State → List Block → List Lz.Op
  | _, [] => []
  | st, b :: bs => b.body.ops st ++ ops (b.body.next st) bs

/-- The matches stay within the output. -/
def Ok (bs : List Block) : Prop := Lz.Ok [] (ops State.start bs)

/-- The bytes a sequence of blocks stands for, before call instructions are restored. -/
def plain (bs : List Block) : List Byte := Lz.run [] (ops State.start bs)

/-! ## Call instructions -/

/-- The number of a little-endian byte sequence. -/
def leVal : List Byte → Nat
  | [] => 0
  | b :: bs => b.toNat + 256 * leVal bs

/-- As a signed 32-bit number. -/
def signed (v : Nat) : Int := if v < 2 ^ 31 then v else (v : Int) - 2 ^ 32

/-- The operand of the call instruction at offset `i`: the absolute address the encoder stored becomes
relative again. Addresses outside the file of 12000000 bytes the encoder assumes were left alone. -/
def restore (i : Nat) (t : Int) : Int :=
  if -(i : Int) ≤ t ∧ t < 12000000 then (if 0 ≤ t then t - i else t + 12000000) else t

/-- Restore the call instructions (byte 0xe8) from offset `i` on; those in the last `tail` of the `n`
bytes are left alone. -/
def calls (tail n : Nat) : Nat → List Byte → List Byte
  | i, b :: a0 :: a1 :: a2 :: a3 :: rest =>
    if b = 0xe8 ∧ i + tail < n then
      b :: le 4 (restore i (signed (leVal [a0, a1, a2, a3])) % 2 ^ 32).toNat ++ calls tail n (i + 5) rest
    else b :: calls tail n (i + 1) (a0 :: a1 :: a2 :: a3 :: rest)
  | _, rest => rest

/-- The bytes a sequence of blocks stands for: call instructions in the last 10 bytes are left alone. -/
def denote (bs : List Block) : List Byte := calls 10 (plain bs).length 0 (plain bs)

end Keramics.Spec.Lzx
