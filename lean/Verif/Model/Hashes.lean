import Verif.Model.Digest

/-!
Model of the block transforms of `keramics-hashes`: md5.rs, sha1.rs, sha224.rs, sha256.rs,
sha512.rs. Fixed-size arrays that are only indexed by constants (`hash_values`, `block_hashes`) are
tuples, arrays indexed by a loop variable are lists with bounds-checked access.
-/

namespace Keramics.Digest

/-- The loop that breaks a block into 16 words, md5.rs:92-99, sha1.rs:65-69, sha256.rs:79-83,
sha512.rs:94-98. `rd` is the integer macro, `k` the word size in bytes. -/
def loadWords (w k : Nat) (rd : List Byte → Nat → R Nat) (data : List Byte) (off : Nat) :
    R (List (BitVec w)) :=
  (List.range 16).mapM fun i => do return BitVec.ofNat w (← rd data (off + k * i))

/-- The loop that extends 16 words to `total`, sha1.rs:71-77, sha256.rs:85-98, sha512.rs:100-113:
word `i` is computed from the words at distance `o1`, `o2`, `o3` and `o4`. -/
def extendWords {w : Nat} (F : BitVec w → BitVec w → BitVec w → BitVec w → BitVec w)
    (o1 o2 o3 o4 total : Nat) (words : List (BitVec w)) : R (List (BitVec w)) :=
  (List.range' 16 (total - 16)).foldlM (fun v i => do
    let a ← R.get v (i - o1)
    let b ← R.get v (i - o2)
    let c ← R.get v (i - o3)
    let d ← R.get v (i - o4)
    R.set v i (F a b c d)) (words ++ List.replicate (total - 16) 0)

/-! ### MD5 -/

/-- `MD5_SINES`, md5.rs:29-38. -/
def md5Sines : List (BitVec 32) :=
  [0xd76aa478#32, 0xe8c7b756#32, 0x242070db#32, 0xc1bdceee#32, 0xf57c0faf#32, 0x4787c62a#32, 0xa8304613#32,
   0xfd469501#32, 0x698098d8#32, 0x8b44f7af#32, 0xffff5bb1#32, 0x895cd7be#32, 0x6b901122#32, 0xfd987193#32,
   0xa679438e#32, 0x49b40821#32, 0xf61e2562#32, 0xc040b340#32, 0x265e5a51#32, 0xe9b6c7aa#32, 0xd62f105d#32,
   0x02441453#32, 0xd8a1e681#32, 0xe7d3fbc8#32, 0x21e1cde6#32, 0xc33707d6#32, 0xf4d50d87#32, 0x455a14ed#32,
   0xa9e3e905#32, 0xfcefa3f8#32, 0x676f02d9#32, 0x8d2a4c8a#32, 0xfffa3942#32, 0x8771f681#32, 0x6d9d6122#32,
   0xfde5380c#32, 0xa4beea44#32, 0x4bdecfa9#32, 0xf6bb4b60#32, 0xbebfbc70#32, 0x289b7ec6#32, 0xeaa127fa#32,
   0xd4ef3085#32, 0x04881d05#32, 0xd9d4d039#32, 0xe6db99e5#32, 0x1fa27cf8#32, 0xc4ac5665#32, 0xf4292244#32,
   0x432aff97#32, 0xab9423a7#32, 0xfc93a039#32, 0x655b59c3#32, 0x8f0ccc92#32, 0xffeff47d#32, 0x85845dd1#32,
   0x6fa87e4f#32, 0xfe2ce6e0#32, 0xa3014314#32, 0x4e0811a1#32, 0xf7537e82#32, 0xbd3af235#32, 0x2ad7d2bb#32,
   0xeb86d391#32]

/-- `MD5_BIT_SHIFTS`, md5.rs:41-45. -/
def md5Shifts : List Nat :=
  [7, 12, 17, 22, 7, 12, 17, 22, 7, 12, 17, 22, 7, 12, 17, 22,
   5, 9, 14, 20, 5, 9, 14, 20, 5, 9, 14, 20, 5, 9, 14, 20,
   4, 11, 16, 23, 4, 11, 16, 23, 4, 11, 16, 23, 4, 11, 16, 23,
   6, 10, 15, 21, 6, 10, 15, 21, 6, 10, 15, 21, 6, 10, 15, 21]

/-- `MD5_VALUES_32BIT_INDEX`, md5.rs:52-56. -/
def md5Index : List Nat :=
  [0, 1, 2, 3, 4, 5, 6, 7, 8, 9, 10, 11, 12, 13, 14, 15,
   1, 6, 11, 0, 5, 10, 15, 4, 9, 14, 3, 8, 13, 2, 7, 12,
   5, 8, 11, 14, 1, 4, 7, 10, 13, 0, 3, 6, 9, 12, 15, 2,
   0, 7, 14, 5, 12, 3, 10, 1, 8, 15, 6, 13, 4, 11, 2, 9]

/-- `[u32; 4]` -/
structure H4 where
  (h0 h1 h2 h3 : BitVec 32)
deriving DecidableEq, Repr

/-- One iteration of the loop of `Md5Context::transform_block`, md5.rs:104-123. -/
def md5Round (values : List (BitVec 32)) (h : H4) (i : Nat) : R H4 := do
  let f :=
    if i < 16 then (h.h1 &&& h.h2) ||| (~~~ h.h1 &&& h.h3)
    else if i < 32 then (h.h1 &&& h.h3) ||| (h.h2 &&& ~~~ h.h3)
    else if i < 48 then h.h1 ^^^ h.h2 ^^^ h.h3
    else h.h2 ^^^ (h.h1 ||| ~~~ h.h3)
  let index ← R.get md5Index i
  let value ← R.get values index
  let sine ← R.get md5Sines i
  let shift ← R.get md5Shifts i
  let blockHash := (f + h.h0 + value + sine).rotateLeft shift
  let h := { h with h0 := h.h3 }
  let h := { h with h3 := h.h2 }
  let h := { h with h2 := h.h1 }
  let h := { h with h1 := h.h1 + blockHash }
  return h

/-- `Md5Context::transform_block`, md5.rs:86-130. -/
def md5Transform (h : H4) (data : List Byte) (off : Nat) : R H4 := do
  let values ← loadWords 32 4 u32le data off
  let b ← (List.range 64).foldlM (md5Round values) h
  return ⟨b.h0 + h.h0, b.h1 + h.h1, b.h2 + h.h2, b.h3 + h.h3⟩

/-- `Md5Context`: `MD5_BLOCK_SIZE` md5.rs:23, `MD5_HASH_VALUES` md5.rs:26, little-endian length
md5.rs:146, little-endian output md5.rs:154-159. -/
def md5 : Alg H4 where
  blockSize := 64
  padLimit := 56
  init := ⟨0x67452301#32, 0xefcdab89#32, 0x98badcfe#32, 0x10325476#32⟩
  transform := md5Transform
  sizeBytes := leBytes 8
  output h := [h.h0, h.h1, h.h2, h.h3].flatMap fun x => leBytes 4 x.toNat
  blockSize_pos := by decide

/-! ### SHA-1 -/

/-- `[u32; 5]` -/
structure H5 where
  (h0 h1 h2 h3 h4 : BitVec 32)
deriving DecidableEq, Repr

/-- One iteration of the loop of `Sha1Context::transform_block`, sha1.rs:82-107. -/
def sha1Round (values : List (BitVec 32)) (h : H5) (i : Nat) : R H5 := do
  let f :=
    if i < 20 then 0x5a827999#32 + ((h.h1 &&& h.h2) ||| (~~~ h.h1 &&& h.h3))
    else if i < 40 then 0x6ed9eba1#32 + (h.h1 ^^^ h.h2 ^^^ h.h3)
    else if i < 60 then
      0x8f1bbcdc#32 + ((h.h1 &&& h.h2) ||| (h.h1 &&& h.h3) ||| (h.h2 &&& h.h3))
    else 0xca62c1d6#32 + (h.h1 ^^^ h.h2 ^^^ h.h3)
  let value ← R.get values i
  let blockHash := f + h.h4 + h.h0.rotateLeft 5 + value
  let h := { h with h4 := h.h3 }
  let h := { h with h3 := h.h2 }
  let h := { h with h2 := h.h1.rotateLeft 30 }
  let h := { h with h1 := h.h0 }
  let h := { h with h0 := blockHash }
  return h

/-- `Sha1Context::transform_block`, sha1.rs:56-114. -/
def sha1Transform (h : H5) (data : List Byte) (off : Nat) : R H5 := do
  let words ← loadWords 32 4 u32be data off
  let values ← extendWords (fun a b c d => (a ^^^ b ^^^ c ^^^ d).rotateLeft 1) 3 8 14 16 80 words
  let b ← (List.range 80).foldlM (sha1Round values) h
  return ⟨b.h0 + h.h0, b.h1 + h.h1, b.h2 + h.h2, b.h3 + h.h3, b.h4 + h.h4⟩

/-- `Sha1Context`: `SHA1_BLOCK_SIZE` sha1.rs:23, `SHA1_HASH_VALUES` sha1.rs:26, big-endian length
sha1.rs:130, big-endian output sha1.rs:138-143. -/
def sha1 : Alg H5 where
  blockSize := 64
  padLimit := 56
  init := ⟨0x67452301#32, 0xefcdab89#32, 0x98badcfe#32, 0x10325476#32, 0xc3d2e1f0#32⟩
  transform := sha1Transform
  sizeBytes := beBytes 8
  output h := [h.h0, h.h1, h.h2, h.h3, h.h4].flatMap fun x => beBytes 4 x.toNat
  blockSize_pos := by decide

/-! ### SHA-2 -/

/-- `[u32; 8]` or `[u64; 8]` -/
structure H8 (w : Nat) where
  (h0 h1 h2 h3 h4 h5 h6 h7 : BitVec w)
deriving DecidableEq, Repr

/-- The rotation amounts in which sha256.rs and sha512.rs differ. -/
structure Sha2Consts (w : Nat) where
  /-- sha256.rs:86-88, sha512.rs:101-103: two rotations and a shift. -/
  e0 : Nat × Nat × Nat
  /-- sha256.rs:90-92, sha512.rs:105-107: two rotations and a shift. -/
  e1 : Nat × Nat × Nat
  /-- sha256.rs:104-106, sha512.rs:119-121: three rotations. -/
  s0 : Nat × Nat × Nat
  /-- sha256.rs:108-110, sha512.rs:123-125: three rotations. -/
  s1 : Nat × Nat × Nat
  /-- `SHA256_PRIME_CUBE_ROOTS`, `SHA512_PRIME_CUBE_ROOTS`. -/
  cubeRoots : List (BitVec w)
  /-- Number of rounds, 64 or 80. -/
  rounds : Nat

/-- Word extension, sha256.rs:85-98, sha224.rs:85-98, sha512.rs:100-113. -/
def Sha2Consts.extend {w : Nat} (P : Sha2Consts w) (a b c d : BitVec w) : BitVec w :=
  let s0 := c.rotateRight P.e0.1 ^^^ c.rotateRight P.e0.2.1 ^^^ (c >>> P.e0.2.2)
  let s1 := a.rotateRight P.e1.1 ^^^ a.rotateRight P.e1.2.1 ^^^ (a >>> P.e1.2.2)
  d + s0 + b + s1

/-- One iteration of the round loop, sha256.rs:103-134, sha224.rs:103-134, sha512.rs:118-149. -/
def Sha2Consts.round {w : Nat} (P : Sha2Consts w) (values : List (BitVec w)) (h : H8 w) (i : Nat) :
    R (H8 w) := do
  let s0 := h.h0.rotateRight P.s0.1 ^^^ h.h0.rotateRight P.s0.2.1 ^^^ h.h0.rotateRight P.s0.2.2
  let s1 := h.h4.rotateRight P.s1.1 ^^^ h.h4.rotateRight P.s1.2.1 ^^^ h.h4.rotateRight P.s1.2.2
  let k ← R.get P.cubeRoots i
  let value ← R.get values i
  let t1 := h.h7 + s1 + ((h.h4 &&& h.h5) ^^^ (~~~ h.h4 &&& h.h6)) + k + value
  let t2 := s0 + ((h.h0 &&& h.h1) ^^^ (h.h0 &&& h.h2) ^^^ (h.h1 &&& h.h2))
  let h := { h with h7 := h.h6 }
  let h := { h with h6 := h.h5 }
  let h := { h with h5 := h.h4 }
  let h := { h with h4 := h.h3 + t1 }
  let h := { h with h3 := h.h2 }
  let h := { h with h2 := h.h1 }
  let h := { h with h1 := h.h0 }
  let h := { h with h0 := t1 + t2 }
  return h

/-- `transform_block`, sha256.rs:70-141, sha224.rs:70-141, sha512.rs:85-156. -/
def Sha2Consts.transform {w : Nat} (P : Sha2Consts w) (k : Nat) (rd : List Byte → Nat → R Nat)
    (h : H8 w) (data : List Byte) (off : Nat) : R (H8 w) := do
  let words ← loadWords w k rd data off
  let values ← extendWords P.extend 2 7 15 16 P.rounds words
  let b ← (List.range P.rounds).foldlM (P.round values) h
  return ⟨b.h0 + h.h0, b.h1 + h.h1, b.h2 + h.h2, b.h3 + h.h3,
    b.h4 + h.h4, b.h5 + h.h5, b.h6 + h.h6, b.h7 + h.h7⟩

/-- `SHA256_PRIME_CUBE_ROOTS` sha256.rs:31-40 and `SHA224_PRIME_CUBE_ROOTS` sha224.rs:31-40
(identical). -/
def sha256CubeRoots : List (BitVec 32) :=
  [0x428a2f98#32, 0x71374491#32, 0xb5c0fbcf#32, 0xe9b5dba5#32, 0x3956c25b#32, 0x59f111f1#32, 0x923f82a4#32,
   0xab1c5ed5#32, 0xd807aa98#32, 0x12835b01#32, 0x243185be#32, 0x550c7dc3#32, 0x72be5d74#32, 0x80deb1fe#32,
   0x9bdc06a7#32, 0xc19bf174#32, 0xe49b69c1#32, 0xefbe4786#32, 0x0fc19dc6#32, 0x240ca1cc#32, 0x2de92c6f#32,
   0x4a7484aa#32, 0x5cb0a9dc#32, 0x76f988da#32, 0x983e5152#32, 0xa831c66d#32, 0xb00327c8#32, 0xbf597fc7#32,
   0xc6e00bf3#32, 0xd5a79147#32, 0x06ca6351#32, 0x14292967#32, 0x27b70a85#32, 0x2e1b2138#32, 0x4d2c6dfc#32,
   0x53380d13#32, 0x650a7354#32, 0x766a0abb#32, 0x81c2c92e#32, 0x92722c85#32, 0xa2bfe8a1#32, 0xa81a664b#32,
   0xc24b8b70#32, 0xc76c51a3#32, 0xd192e819#32, 0xd6990624#32, 0xf40e3585#32, 0x106aa070#32, 0x19a4c116#32,
   0x1e376c08#32, 0x2748774c#32, 0x34b0bcb5#32, 0x391c0cb3#32, 0x4ed8aa4a#32, 0x5b9cca4f#32, 0x682e6ff3#32,
   0x748f82ee#32, 0x78a5636f#32, 0x84c87814#32, 0x8cc70208#32, 0x90befffa#32, 0xa4506ceb#32, 0xbef9a3f7#32,
   0xc67178f2#32]

/-- `SHA512_PRIME_CUBE_ROOTS`, sha512.rs:34-55. -/
def sha512CubeRoots : List (BitVec 64) :=
  [0x428a2f98d728ae22#64, 0x7137449123ef65cd#64, 0xb5c0fbcfec4d3b2f#64, 0xe9b5dba58189dbbc#64,
   0x3956c25bf348b538#64, 0x59f111f1b605d019#64, 0x923f82a4af194f9b#64, 0xab1c5ed5da6d8118#64,
   0xd807aa98a3030242#64, 0x12835b0145706fbe#64, 0x243185be4ee4b28c#64, 0x550c7dc3d5ffb4e2#64,
   0x72be5d74f27b896f#64, 0x80deb1fe3b1696b1#64, 0x9bdc06a725c71235#64, 0xc19bf174cf692694#64,
   0xe49b69c19ef14ad2#64, 0xefbe4786384f25e3#64, 0x0fc19dc68b8cd5b5#64, 0x240ca1cc77ac9c65#64,
   0x2de92c6f592b0275#64, 0x4a7484aa6ea6e483#64, 0x5cb0a9dcbd41fbd4#64, 0x76f988da831153b5#64,
   0x983e5152ee66dfab#64, 0xa831c66d2db43210#64, 0xb00327c898fb213f#64, 0xbf597fc7beef0ee4#64,
   0xc6e00bf33da88fc2#64, 0xd5a79147930aa725#64, 0x06ca6351e003826f#64, 0x142929670a0e6e70#64,
   0x27b70a8546d22ffc#64, 0x2e1b21385c26c926#64, 0x4d2c6dfc5ac42aed#64, 0x53380d139d95b3df#64,
   0x650a73548baf63de#64, 0x766a0abb3c77b2a8#64, 0x81c2c92e47edaee6#64, 0x92722c851482353b#64,
   0xa2bfe8a14cf10364#64, 0xa81a664bbc423001#64, 0xc24b8b70d0f89791#64, 0xc76c51a30654be30#64,
   0xd192e819d6ef5218#64, 0xd69906245565a910#64, 0xf40e35855771202a#64, 0x106aa07032bbd1b8#64,
   0x19a4c116b8d2d0c8#64, 0x1e376c085141ab53#64, 0x2748774cdf8eeb99#64, 0x34b0bcb5e19b48a8#64,
   0x391c0cb3c5c95a63#64, 0x4ed8aa4ae3418acb#64, 0x5b9cca4f7763e373#64, 0x682e6ff3d6b2b8a3#64,
   0x748f82ee5defb2fc#64, 0x78a5636f43172f60#64, 0x84c87814a1f0ab72#64, 0x8cc702081a6439ec#64,
   0x90befffa23631e28#64, 0xa4506cebde82bde9#64, 0xbef9a3f7b2c67915#64, 0xc67178f2e372532b#64,
   0xca273eceea26619c#64, 0xd186b8c721c0c207#64, 0xeada7dd6cde0eb1e#64, 0xf57d4f7fee6ed178#64,
   0x06f067aa72176fba#64, 0x0a637dc5a2c898a6#64, 0x113f9804bef90dae#64, 0x1b710b35131c471b#64,
   0x28db77f523047d84#64, 0x32caab7b40c72493#64, 0x3c9ebe0a15c9bebc#64, 0x431d67c49c100d4c#64,
   0x4cc5d4becb3e42b6#64, 0x597f299cfc657e2a#64, 0x5fcb6fab3ad6faec#64, 0x6c44198c4a475817#64]

/-- Constants of sha256.rs and sha224.rs. -/
def sha256Consts : Sha2Consts 32 :=
  ⟨(7, 18, 3), (17, 19, 10), (2, 13, 22), (6, 11, 25), sha256CubeRoots, 64⟩

/-- Constants of sha512.rs. -/
def sha512Consts : Sha2Consts 64 :=
  ⟨(1, 8, 7), (19, 61, 6), (28, 34, 39), (14, 18, 41), sha512CubeRoots, 80⟩

/-- All eight hash values in big-endian order, sha256.rs:165-170, sha512.rs:180-185. -/
def H8.bytes {w : Nat} (k : Nat) (h : H8 w) : List Byte :=
  [h.h0, h.h1, h.h2, h.h3, h.h4, h.h5, h.h6, h.h7].flatMap fun x => beBytes k x.toNat

/-- `Sha256Context`, `SHA256_PRIME_SQUARE_ROOTS` sha256.rs:26-28. -/
def sha256 : Alg (H8 32) where
  blockSize := 64
  padLimit := 56
  init := ⟨0x6a09e667#32, 0xbb67ae85#32, 0x3c6ef372#32, 0xa54ff53a#32,
    0x510e527f#32, 0x9b05688c#32, 0x1f83d9ab#32, 0x5be0cd19#32⟩
  transform := sha256Consts.transform 4 u32be
  sizeBytes := beBytes 8
  output := H8.bytes 4
  blockSize_pos := by decide

/-- `Sha224Context`, `SHA224_PRIME_SQUARE_ROOTS` sha224.rs:26-28; `hash_values[7]` is not part of
the output, sha224.rs:165-170. -/
def sha224 : Alg (H8 32) where
  blockSize := 64
  padLimit := 56
  init := ⟨0xc1059ed8#32, 0x367cd507#32, 0x3070dd17#32, 0xf70e5939#32,
    0xffc00b31#32, 0x68581511#32, 0x64f98fa7#32, 0xbefa4fa4#32⟩
  transform := sha256Consts.transform 4 u32be
  sizeBytes := beBytes 8
  output h := [h.h0, h.h1, h.h2, h.h3, h.h4, h.h5, h.h6].flatMap fun x => beBytes 4 x.toNat
  blockSize_pos := by decide

/-- `Sha512Context`, `SHA512_PRIME_SQUARE_ROOTS` sha512.rs:27-30. -/
def sha512 : Alg (H8 64) where
  blockSize := 128
  padLimit := 112
  init := ⟨0x6a09e667f3bcc908#64, 0xbb67ae8584caa73b#64,
    0x3c6ef372fe94f82b#64, 0xa54ff53a5f1d36f1#64,
    0x510e527fade682d1#64, 0x9b05688c2b3e6c1f#64,
    0x1f83d9abfb41bd6b#64, 0x5be0cd19137e2179#64⟩
  transform := sha512Consts.transform 8 u64be
  sizeBytes := beBytes 8
  output := H8.bytes 8
  blockSize_pos := by decide

end Keramics.Digest
