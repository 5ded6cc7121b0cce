/-!
Adler-32 as defined in RFC 1950, section 8.2/9: `s1` is 1 (or the running value) plus the sum of
all bytes, `s2` the sum of all `s1` values, both modulo 65521; the result is `s2 * 65536 + s1`.
Written over `Nat`, bytes are numbers.
-/

namespace Keramics.Spec

/-- Final pair (s1, s2) from starting pair, one byte at a time, all arithmetic modulo 65521. -/
def adlerPair : Nat × Nat → List Nat → Nat × Nat
  | p, [] => p
  | (s1, s2), b :: bs => adlerPair ((s1 + b) % 65521, (s2 + (s1 + b)) % 65521) bs

/-- RFC 1950 Adler-32 of `bytes`, starting from the running checksum `start` (1 for a new one). -/
def adler32 (start : Nat) (bytes : List Nat) : Nat :=
  let p := adlerPair (start % 65536, start / 65536) bytes
  p.2 * 65536 + p.1

end Keramics.Spec
