import Verif.Spec.NtfsFileSystem
import Verif.Spec.Lzx

/-!
# Specification: files that the Windows Overlay Filter compressed

The contents are cut into units, each of which is stored in a block of the stream "WofCompressedData". The stream begins with a table of where
the blocks start, except for the first, relative to the end of the table. A block that is as long as its unit holds it as it is; others hold
it compressed.
-/

namespace Keramics.Spec.Wof
open Keramics.Spec Keramics.Spec.NtfsFs

/-- "WofCompressedData" -/
def name : Option (List Nat) := some ("WofCompressedData".toList.map Char.toNat)

/-- The file has a reparse point of the Windows Overlay Filter, with this method. -/
def Overlay (as : List Attribute) (method : Nat) : Prop :=
  ∃ a ∈ as, ∃ data, a.kind = 0xc0 ∧ a.value = .resident data ∧ ReparseAt data (.overlay method)

/-- The methods and the sizes of their units: LZXPRESS Huffman with 4 KiB, 8 KiB and 16 KiB, and LZX with 32 KiB. -/
inductive Unit : Nat → Nat → Prop
  | huffman4 : Unit 0 4096
  | lzx : Unit 1 32768
  | huffman8 : Unit 2 8192
  | huffman16 : Unit 3 16384

/-- The number of units of `size` bytes. -/
def count (unit size : Nat) : Nat := (size + unit - 1) / unit

/-- The size of an entry of the table, for a stream of `stored` bytes. -/
def width (stored : Nat) : Nat := if stored < 2 ^ 32 then 4 else 8

/-- The size of the table of `n` blocks. -/
def table (stored n : Nat) : Nat := (n - 1) * width stored

/-- Where block `i` of `n` starts, in the first `stored` bytes of `W`; the last ends where the stream does. -/
def start (W : List Byte) (stored n i : Nat) : Nat :=
  if i = 0 then table stored n
  else if i < n then table stored n + field W ((i - 1) * width stored) (width stored)
  else stored

/-- Block `i`. -/
def block (W : List Byte) (stored n i : Nat) : List Byte :=
  bytesAt W (start W stored n i) (start W stored n (i + 1) - start W stored n i)

/-- The first `stored` bytes of `W` hold the contents `C` in units of `unit` bytes. `Means raw plain` says which bytes a compressed block stands for. -/
structure Holds (Means : List Byte → List Byte → Prop) (unit : Nat) (W : List Byte) (stored : Nat) (C : List Byte) : Prop where
  inside : stored ≤ W.length
  ordered : ∀ i, i < count unit C.length → start W stored (count unit C.length) i < start W stored (count unit C.length) (i + 1)
  blocks : ∀ i, i < count unit C.length →
    if (block W stored (count unit C.length) i).length = (bytesAt C (i * unit) unit).length
    then block W stored (count unit C.length) i = bytesAt C (i * unit) unit
    else Means (block W stored (count unit C.length) i) (bytesAt C (i * unit) unit)

/-- The bytes are those of a sequence of LZX blocks, in 16-bit words, with less than a word of padding. -/
def LzxMeans (raw plain : List Byte) : Prop :=
  raw.length % 2 = 0 ∧ ∃ bs junk, Lzx.Wf 0 Lzx.State.start bs ∧ Lzx.Ok bs ∧ Lzx.wordBits raw = Lzx.encode Lzx.State.start bs ++ junk ∧
    junk.length < 16 ∧ Lzx.denote bs = plain

end Keramics.Spec.Wof
