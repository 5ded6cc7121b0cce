import Verif.Base.Ints

/-!
# Specification: the file allocation table

After the Microsoft FAT specification. A table is a sequence of entries of 12, 16 or 32 bits packed
without gaps, least significant bit first: entry `i` is the digit at place `i` of the number the table
is in base `2 ^ width`, its bytes taken least significant first. The top four bits of a 32-bit entry are
reserved and not part of the value.
-/

namespace Keramics.Spec.Fat

/-- Bits of an entry. -/
inductive Width where
  | w12 | w16 | w32
deriving DecidableEq, Repr

def Width.bits : Width → Nat
  | .w12 => 12
  | .w16 => 16
  | .w32 => 32

/-- The bits stored for cluster `i`. -/
def stored (w : Width) (table : List Byte) (i : Nat) : Nat := leNat table / 2 ^ (w.bits * i) % 2 ^ w.bits

/-- The value of the entry: without the reserved bits. -/
def Width.value (w : Width) (bits : Nat) : Nat := match w with
  | .w32 => bits % 2 ^ 28
  | _ => bits

/-- The value of entry `i`. -/
def entry (w : Width) (table : List Byte) (i : Nat) : Nat := w.value (stored w table i)

/-- The values from which on an entry marks the end of a chain. -/
def Width.endMark : Width → Nat
  | .w12 => 0xff8
  | .w16 => 0xfff8
  | .w32 => 0x0ffffff8

/-- The number that marks a bad cluster; clusters have smaller numbers. -/
def Width.bad : Width → Nat
  | .w12 => 0xff7
  | .w16 => 0xfff7
  | .w32 => 0x0ffffff7

/-- `chain` is the list of clusters of the file that starts at cluster `c`: each cluster's entry is the
number of the next one, the last one's entry is an end mark. -/
inductive Chain (w : Width) (table : List Byte) : Nat → List Nat → Prop
  | last {c} : w.endMark ≤ c → Chain w table c []
  | next {c chain} : 2 ≤ c → c < w.bad → Chain w table (entry w table c) chain → Chain w table c (c :: chain)

/-- The bytes of cluster `c` of a volume whose first cluster, number 2, is at `first`. -/
def cluster (volume : List Byte) (first bs c : Nat) : List Byte := (volume.drop (first + (c - 2) * bs)).take bs

/-- The contents of a file. -/
def contents (volume : List Byte) (first bs : Nat) (chain : List Nat) (size : Nat) : List Byte :=
  (chain.flatMap (cluster volume first bs)).take size

end Keramics.Spec.Fat
