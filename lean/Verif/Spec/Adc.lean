import Verif.Spec.Lz

/-!
The ADC format (Apple data compression): literals of 1 to 128 bytes, two-byte matches of 3 to 18 bytes
at a distance up to 1024, three-byte matches of 4 to 67 bytes at a distance up to 65536.
-/

namespace Keramics.Spec.Adc

inductive Token where
  | literal (bytes : List Byte)
  | short (distance length : Nat)
  | long (distance length : Nat)

def Token.wf : Token → Prop
  | .literal bytes => 1 ≤ bytes.length ∧ bytes.length ≤ 128
  | .short d n => 1 ≤ d ∧ d ≤ 1024 ∧ 3 ≤ n ∧ n ≤ 18
  | .long d n => 1 ≤ d ∧ d ≤ 65536 ∧ 4 ≤ n ∧ n ≤ 67

def Token.encode : Token → List Byte
  | .literal bytes => BitVec.ofNat 8 (0x80 + (bytes.length - 1)) :: bytes
  | .short d n => [BitVec.ofNat 8 ((n - 3) * 4 + (d - 1) / 256), BitVec.ofNat 8 ((d - 1) % 256)]
  | .long d n =>
    [BitVec.ofNat 8 (0x40 + (n - 4)), BitVec.ofNat 8 ((d - 1) / 256), BitVec.ofNat 8 ((d - 1) % 256)]

def Token.op : Token → Lz.Op
  | .literal bytes => .literal bytes
  | .short d n => .copy d n
  | .long d n => .copy d n

def encode (ts : List Token) : List Byte := ts.flatMap Token.encode

/-- The bytes a token list denotes. -/
def denote (ts : List Token) : List Byte := Lz.run [] (ts.map Token.op)

/-- Tokens are in range and matches refer to existing bytes. -/
def Valid (ts : List Token) : Prop := (∀ t ∈ ts, t.wf) ∧ Lz.Ok [] (ts.map Token.op)

end Keramics.Spec.Adc
