import Verif.Spec.Deflate
import Verif.Spec.Adler32

/-! The zlib container (RFC 1950). -/

namespace Keramics.Spec.Zlib
open Keramics.Spec.Deflate

/-- The big-endian value of four bytes. -/
def be32 (a b c d : Byte) : Nat := a.toNat * 16777216 + b.toNat * 65536 + c.toNat * 256 + d.toNat

/-- `data` is a zlib stream of `blocks`, with the checksum `sum`, followed by `extra` bytes that do not belong to it: two header bytes, the identifier of a
preset dictionary if the flag says that there is one, the DEFLATE bits filled up to a whole number of bytes, the checksum. -/
def Stream (data : List Byte) (blocks : List Block) (sum : Nat) (extra : List Byte) : Prop :=
  ∃ cmf flg dictionary body a b c d, data = cmf :: flg :: (dictionary ++ body ++ [a, b, c, d] ++ extra) ∧
    cmf.toNat % 16 = 8 ∧ cmf.toNat / 16 ≤ 7 ∧ (cmf.toNat * 256 + flg.toNat) % 31 = 0 ∧
    dictionary.length = (if flg.toNat / 32 % 2 = 1 then 4 else 0) ∧
    (∃ fill : List Bool, fill.length < 8 ∧ byteBits body = encode blocks ++ fill) ∧ be32 a b c d = sum

/-- The checksum that belongs to the bytes. -/
def checksum (bytes : List Byte) : Nat := adler32 1 (bytes.map BitVec.toNat)

end Keramics.Spec.Zlib
