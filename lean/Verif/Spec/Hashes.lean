import Verif.Spec.Digest
import Verif.Base.Ints
import Mathlib.Data.Nat.Prime.Defs
import Mathlib.Data.Nat.Nth
import Mathlib.Data.Nat.Find

/-!
FIPS 180-4: SHA-1, SHA-224, SHA-256 and SHA-512. The constants of SHA-2 are defined by what the
standard says they are (fractional parts of roots of primes), not by tables.
-/

namespace Keramics.Spec

/-- Big-endian word `t` of a block, words of `k` bytes (`w = 8 k`). -/
def beWord (w k : Nat) (block : List (BitVec 8)) (t : Nat) : BitVec w :=
  BitVec.ofNat w (beNat ((block.drop (k * t)).take k))

/-! ### Functions of section 4.1 -/

def Ch {w : Nat} (x y z : BitVec w) : BitVec w := (x &&& y) ^^^ (~~~ x &&& z)
def Parity {w : Nat} (x y z : BitVec w) : BitVec w := x ^^^ y ^^^ z
def Maj {w : Nat} (x y z : BitVec w) : BitVec w := (x &&& y) ^^^ (x &&& z) ^^^ (y &&& z)

/-! ### SHA-1, section 6.1 -/

/-- Message schedule of SHA-1. -/
def sha1W (M : Nat → BitVec 32) (t : Nat) : BitVec 32 :=
  if _h : t < 16 then M t
  else (sha1W M (t - 3) ^^^ sha1W M (t - 8) ^^^ sha1W M (t - 14) ^^^ sha1W M (t - 16)).rotateLeft 1
termination_by t

/-- Constants K of SHA-1, section 4.2.1. -/
def sha1K (t : Nat) : BitVec 32 :=
  if t < 20 then 0x5a827999#32 else if t < 40 then 0x6ed9eba1#32
  else if t < 60 then 0x8f1bbcdc#32 else 0xca62c1d6#32

/-- Functions f of SHA-1, section 4.1.1. -/
def sha1F (t : Nat) : BitVec 32 → BitVec 32 → BitVec 32 → BitVec 32 :=
  if t < 20 then Ch else if t < 40 then Parity else if t < 60 then Maj else Parity

/-- Five words. -/
structure W5 where
  (a b c d e : BitVec 32)
deriving DecidableEq

/-- Section 6.1.2 step 3. -/
def sha1Step (W : Nat → BitVec 32) (s : W5) (t : Nat) : W5 :=
  let T := s.a.rotateLeft 5 + sha1F t s.b s.c s.d + s.e + sha1K t + W t
  ⟨T, s.a, s.b.rotateLeft 30, s.c, s.d⟩

/-- Section 6.1.2: one block. -/
def sha1Compress (s : W5) (block : List (BitVec 8)) : W5 :=
  let r := (List.range 80).foldl (sha1Step (sha1W (beWord 32 4 block))) s
  ⟨r.a + s.a, r.b + s.b, r.c + s.c, r.d + s.d, r.e + s.e⟩

/-- SHA-1. -/
def sha1 (message : List (BitVec 8)) : List (BitVec 8) :=
  mdHash sha1Compress 64
    ⟨0x67452301#32, 0xefcdab89#32, 0x98badcfe#32, 0x10325476#32, 0xc3d2e1f0#32⟩
    (fun s => [s.a, s.b, s.c, s.d, s.e].flatMap fun x => beBytes 4 x.toNat)
    (beBytes 8) message

/-! ### SHA-2, sections 4.1.2, 4.1.3, 4.2.2, 4.2.3, 6.2 and 6.4 -/

/-- `⌊n ^ (1/k)⌋` -/
def floorRoot (k n : Nat) : Nat := Nat.findGreatest (fun r => r ^ k ≤ n) n

/-- The first `w` bits of the fractional part of the `k`-th root of `p`. -/
def fracRoot (k w p : Nat) : Nat := floorRoot k (p * 2 ^ (k * w)) % 2 ^ w

/-- The `i`-th prime (0-based). -/
noncomputable def prime (i : Nat) : Nat := Nat.nth Nat.Prime i

/-- K of SHA-224 and SHA-256: first 32 bits of the fractional parts of the cube roots of the primes. -/
noncomputable def sha256K (t : Nat) : BitVec 32 := BitVec.ofNat 32 (fracRoot 3 32 (prime t))

/-- K of SHA-512: first 64 bits of the fractional parts of the cube roots of the primes. -/
noncomputable def sha512K (t : Nat) : BitVec 64 := BitVec.ofNat 64 (fracRoot 3 64 (prime t))

/-- Eight words. -/
structure W8 (w : Nat) where
  (a b c d e f g h : BitVec w)
deriving DecidableEq

/-- Message schedule of SHA-2. -/
def sha2W {w : Nat} (σ0 σ1 : BitVec w → BitVec w) (M : Nat → BitVec w) (t : Nat) : BitVec w :=
  if _h : t < 16 then M t
  else σ1 (sha2W σ0 σ1 M (t - 2)) + sha2W σ0 σ1 M (t - 7) + σ0 (sha2W σ0 σ1 M (t - 15))
    + sha2W σ0 σ1 M (t - 16)
termination_by t

/-- Sections 6.2.2 and 6.4.2 step 3. -/
def sha2Step {w : Nat} (S0 S1 : BitVec w → BitVec w) (K W : Nat → BitVec w) (s : W8 w) (t : Nat) :
    W8 w :=
  let T1 := s.h + S1 s.e + Ch s.e s.f s.g + K t + W t
  let T2 := S0 s.a + Maj s.a s.b s.c
  ⟨T1 + T2, s.a, s.b, s.c, s.d + T1, s.e, s.f, s.g⟩

/-- Sections 6.2.2 and 6.4.2: one block of words of `k` bytes. -/
def sha2Compress {w : Nat} (k rounds : Nat) (σ0 σ1 S0 S1 : BitVec w → BitVec w)
    (K : Nat → BitVec w) (s : W8 w) (block : List (BitVec 8)) : W8 w :=
  let r := (List.range rounds).foldl (sha2Step S0 S1 K (sha2W σ0 σ1 (beWord w k block))) s
  ⟨r.a + s.a, r.b + s.b, r.c + s.c, r.d + s.d, r.e + s.e, r.f + s.f, r.g + s.g, r.h + s.h⟩

/-- One block of SHA-224 and SHA-256. -/
noncomputable def sha256Compress : W8 32 → List (BitVec 8) → W8 32 :=
  sha2Compress 4 64
    (fun x => x.rotateRight 7 ^^^ x.rotateRight 18 ^^^ x >>> 3)
    (fun x => x.rotateRight 17 ^^^ x.rotateRight 19 ^^^ x >>> 10)
    (fun x => x.rotateRight 2 ^^^ x.rotateRight 13 ^^^ x.rotateRight 22)
    (fun x => x.rotateRight 6 ^^^ x.rotateRight 11 ^^^ x.rotateRight 25)
    sha256K

/-- One block of SHA-512. -/
noncomputable def sha512Compress : W8 64 → List (BitVec 8) → W8 64 :=
  sha2Compress 8 80
    (fun x => x.rotateRight 1 ^^^ x.rotateRight 8 ^^^ x >>> 7)
    (fun x => x.rotateRight 19 ^^^ x.rotateRight 61 ^^^ x >>> 6)
    (fun x => x.rotateRight 28 ^^^ x.rotateRight 34 ^^^ x.rotateRight 39)
    (fun x => x.rotateRight 14 ^^^ x.rotateRight 18 ^^^ x.rotateRight 41)
    sha512K

/-- Initial values from a function of the index. -/
def initial {w : Nat} (f : Nat → Nat) : W8 w :=
  ⟨.ofNat w (f 0), .ofNat w (f 1), .ofNat w (f 2), .ofNat w (f 3),
   .ofNat w (f 4), .ofNat w (f 5), .ofNat w (f 6), .ofNat w (f 7)⟩

/-- The eight words, big-endian, `k` bytes each. -/
def W8.bytes {w : Nat} (k : Nat) (s : W8 w) : List (BitVec 8) :=
  [s.a, s.b, s.c, s.d, s.e, s.f, s.g, s.h].flatMap fun x => beBytes k x.toNat

/-- SHA-256; initial values: first 32 bits of the fractional parts of the square roots of the first
eight primes. -/
noncomputable def sha256 (message : List (BitVec 8)) : List (BitVec 8) :=
  mdHash sha256Compress 64 (initial fun i => fracRoot 2 32 (prime i)) (W8.bytes 4) (beBytes 8)
    message

/-- SHA-224; initial values: second 32 bits of the fractional parts of the square roots of the ninth
through sixteenth primes; the output is the first 28 bytes. -/
noncomputable def sha224 (message : List (BitVec 8)) : List (BitVec 8) :=
  mdHash sha256Compress 64 (initial fun i => fracRoot 2 64 (prime (8 + i)))
    (fun s => (s.bytes 4).take 28) (beBytes 8) message

/-- SHA-512; initial values: first 64 bits of the fractional parts of the square roots of the first
eight primes; 128-bit length field. -/
noncomputable def sha512 (message : List (BitVec 8)) : List (BitVec 8) :=
  mdHash sha512Compress 128 (initial fun i => fracRoot 2 64 (prime i)) (W8.bytes 8) (beBytes 16)
    message

end Keramics.Spec
