import Verif.Spec.Lz

/-!
The LZVN format, after the description in Apple's lzfse reference implementation (lzvn_decode_base):

    small distance     LLMMMDDD DDDDDDDD LITERAL      DDD < 110
    medium distance    101LLMMM DDDDDDMM DDDDDDDD LITERAL
    large distance     LLMMM111 DDDDDDDD DDDDDDDD LITERAL
    previous distance  LLMMM110 LITERAL               LL > 0
    small literal      1110LLLL LITERAL               LLLL > 0
    large literal      11100000 LLLLLLLL LITERAL      + 16
    small match        1111MMMM                       MMMM > 0
    large match        11110000 MMMMMMMM              + 16
    no operation       00001110, 00010110
    end of stream      00000110
-/

namespace Keramics.Spec.Lzvn

inductive Token where
  | small (literal : List Byte) (distance length : Nat)
  | medium (literal : List Byte) (distance length : Nat)
  | large (literal : List Byte) (distance length : Nat)
  | previous (literal : List Byte) (length : Nat)
  | smallLiteral (literal : List Byte)
  | largeLiteral (literal : List Byte)
  | smallMatch (length : Nat)
  | largeMatch (length : Nat)
  | nop (second : Bool)

/-- In the first, third and fourth form the literal and match counts share the values not taken by
other opcodes: `2 L + M ≤ 10`. -/
def Token.wf : Token → Prop
  | .small l d n => d < 1536 ∧ 3 ≤ n ∧ n + 2 * l.length ≤ 10
  | .medium l d n => d < 16384 ∧ 3 ≤ n ∧ n ≤ 34 ∧ l.length ≤ 3
  | .large l d n => d < 65536 ∧ 3 ≤ n ∧ n + 2 * l.length ≤ 10
  | .previous l n => 1 ≤ l.length ∧ 3 ≤ n ∧ n + 2 * l.length ≤ 10
  | .smallLiteral l => 1 ≤ l.length ∧ l.length ≤ 15
  | .largeLiteral l => 16 ≤ l.length ∧ l.length ≤ 271
  | .smallMatch n => 1 ≤ n ∧ n ≤ 15
  | .largeMatch n => 16 ≤ n ∧ n ≤ 271
  | .nop _ => True

def byte (n : Nat) : Byte := BitVec.ofNat 8 n

def Token.encode : Token → List Byte
  | .small l d n => [byte (64 * l.length + 8 * (n - 3) + d / 256), byte (d % 256)] ++ l
  | .medium l d n =>
    [byte (160 + 8 * l.length + (n - 3) / 4), byte (4 * (d % 64) + (n - 3) % 4), byte (d / 64)] ++ l
  | .large l d n => [byte (64 * l.length + 8 * (n - 3) + 7), byte (d % 256), byte (d / 256)] ++ l
  | .previous l n => [byte (64 * l.length + 8 * (n - 3) + 6)] ++ l
  | .smallLiteral l => [byte (224 + l.length)] ++ l
  | .largeLiteral l => [byte 224, byte (l.length - 16)] ++ l
  | .smallMatch n => [byte (240 + n)]
  | .largeMatch n => [byte 240, byte (n - 16)]
  | .nop second => [if second then byte 0x16 else byte 0x0e]

/-- The distance in force after a token. -/
def Token.distance (previous : Nat) : Token → Nat
  | .small _ d _ => d
  | .medium _ d _ => d
  | .large _ d _ => d
  | _ => previous

/-- What a token does, given the previous distance. -/
def Token.ops (previous : Nat) : Token → List Lz.Op
  | .small l d n => [.literal l, .copy d n]
  | .medium l d n => [.literal l, .copy d n]
  | .large l d n => [.literal l, .copy d n]
  | .previous l n => [.literal l, .copy previous n]
  | .smallLiteral l => [.literal l]
  | .largeLiteral l => [.literal l]
  | .smallMatch n => [.copy previous n]
  | .largeMatch n => [.copy previous n]
  | .nop _ => []

def ops (previous : Nat) : List Token → List Lz.Op
  | [] => []
  | t :: ts => t.ops previous ++ ops (t.distance previous) ts

def encode (ts : List Token) : List Byte := ts.flatMap Token.encode

/-- The bytes a token list denotes; there is no distance to reuse at the start. -/
def denote (ts : List Token) : List Byte := Lz.run [] (ops 0 ts)

/-- Tokens are in range and matches refer to existing bytes. -/
def Valid (ts : List Token) : Prop := (∀ t ∈ ts, t.wf) ∧ Lz.Ok [] (ops 0 ts)

end Keramics.Spec.Lzvn
