import Verif.Spec.Digest
import Verif.Base.Ints
import Mathlib.Analysis.Complex.Trigonometric

/-!
RFC 1321, section 3: MD5. The table T is defined by what the RFC says it is: the integer part of
4294967296 times abs(sin(i)), i in radians.
-/

namespace Keramics.Spec

/-- RFC 1321 auxiliary functions F, G, H, I of section 3.4, by round number `r` (0 to 3). -/
def md5F (r : Nat) (x y z : BitVec 32) : BitVec 32 :=
  match r with
  | 0 => (x &&& y) ||| (~~~ x &&& z)
  | 1 => (x &&& z) ||| (y &&& ~~~ z)
  | 2 => x ^^^ y ^^^ z
  | _ => y ^^^ (x ||| ~~~ z)

/-- Index of the message word used in step `i` (0 to 63). -/
def md5X (i : Nat) : Nat :=
  match i / 16 with
  | 0 => i % 16
  | 1 => (5 * i + 1) % 16
  | 2 => (3 * i + 5) % 16
  | _ => (7 * i) % 16

/-- Rotation amounts of round `r`, step `j` within a group of four. -/
def md5S (r j : Nat) : Nat :=
  match r, j with
  | 0, 0 => 7 | 0, 1 => 12 | 0, 2 => 17 | 0, _ => 22
  | 1, 0 => 5 | 1, 1 => 9 | 1, 2 => 14 | 1, _ => 20
  | 2, 0 => 4 | 2, 1 => 11 | 2, 2 => 16 | 2, _ => 23
  | _, 0 => 6 | _, 1 => 10 | _, 2 => 15 | _, _ => 21

/-- `T[i]` for `i` from 1 to 64. -/
noncomputable def md5T (i : Nat) : BitVec 32 :=
  BitVec.ofNat 32 ⌊(4294967296 : ℝ) * |Real.sin (i : ℝ)|⌋₊

/-- Four words. -/
structure W4 where
  (a b c d : BitVec 32)
deriving DecidableEq

/-- Step `i` (0 to 63): a = b + ((a + F(b,c,d) + X[k] + T[i+1]) <<< s), then the roles of the four
registers rotate. -/
noncomputable def md5Step (X : Nat → BitVec 32) (s : W4) (i : Nat) : W4 :=
  ⟨s.d, s.b + (s.a + md5F (i / 16) s.b s.c s.d + X (md5X i) + md5T (i + 1)).rotateLeft
      (md5S (i / 16) (i % 4)), s.b, s.c⟩

/-- Little-endian word `t` of a block. -/
def leWord (block : List (BitVec 8)) (t : Nat) : BitVec 32 :=
  BitVec.ofNat 32 (leNat ((block.drop (4 * t)).take 4))

/-- One block. -/
noncomputable def md5Compress (s : W4) (block : List (BitVec 8)) : W4 :=
  let r := (List.range 64).foldl (md5Step (leWord block)) s
  ⟨s.a + r.a, s.b + r.b, s.c + r.c, s.d + r.d⟩

/-- MD5. -/
noncomputable def md5 (message : List (BitVec 8)) : List (BitVec 8) :=
  mdHash md5Compress 64 ⟨0x67452301#32, 0xefcdab89#32, 0x98badcfe#32, 0x10325476#32⟩
    (fun s => [s.a, s.b, s.c, s.d].flatMap fun x => leBytes 4 x.toNat) (leBytes 8) message

end Keramics.Spec
