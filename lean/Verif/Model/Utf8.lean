import Verif.Base.R

/-!
Model of keramics-encodings/src/utf8.rs (the decoder; the crate has no UTF-8 encoder).

The remaining bytes are kept as a list. An item of the iterator is a code point or an error; on an
error the index is not advanced (utf8.rs:157 is not reached).
-/

namespace Keramics.Utf8

/-- utf8.rs:74-79: the value named `is_valid` in the code, true when the second byte is invalid. -/
def bad2 (b1 b : Nat) : Bool :=
  if b1 = 0xe0 then b < 0xa0 || b > 0xbf
  else if b1 = 0xed then b < 0x80 || b > 0x9f
  else if b1 = 0xf0 then b < 0x90 || b > 0xbf
  else b < 0x80 || b > 0xbf

/-- utf8.rs:104-108: as above for the third byte; the code matches on the second byte. -/
def bad3 (b2 b : Nat) : Bool :=
  if b2 = 0xe0 then b < 0xa0 || b > 0xbf
  else if b2 = 0xed then b < 0x80 || b > 0x9f
  else b < 0x80 || b > 0xbf

/-- utf8.rs:133. -/
def bad4 (b : Nat) : Bool := b < 0x80 || b > 0xbf

/-- utf8.rs:60-89, 90-118, 119-142: read one more byte when the first byte is at least `limit`,
otherwise 0. -/
def more (b1 limit : Nat) (bad : Nat → Bool) (rest : List Byte) : R (Nat × List Byte) :=
  if b1 ≥ limit then
    match rest with
    | [] => .err
    | b :: rest => if bad b.toNat then .err else .ok (b.toNat, rest)
  else .ok (0, rest)

/-- utf8.rs:143-156. -/
def codePoint (b1 b2 b3 b4 : Nat) : Nat :=
  if b1 < 0x80 then b1
  else if b1 < 0xe0 then ((b1 &&& 0x1f) <<< 6) ||| (b2 &&& 0x3f)
  else if b1 < 0xf0 then ((b1 &&& 0x0f) <<< 12) ||| ((b2 &&& 0x3f) <<< 6) ||| (b3 &&& 0x3f)
  else ((b1 &&& 0x07) <<< 18) ||| ((b2 &&& 0x3f) <<< 12) ||| ((b3 &&& 0x3f) <<< 6) ||| (b4 &&& 0x3f)

/-- utf8.rs:54-159: decode the character starting with `byte1`. -/
def decodeFrom (byte1 : Byte) (rest : List Byte) : R (Nat × List Byte) := do
  let b1 := byte1.toNat
  if (b1 ≥ 0x80 ∧ b1 < 0xc0) ∨ b1 > 0xf4 then .err
  else
    let (b2, rest) ← more b1 0xc0 (bad2 b1) rest
    let (b3, rest) ← more b1 0xe0 (bad3 b2) rest
    let (b4, rest) ← more b1 0xf0 bad4 rest
    pure (codePoint b1 b2 b3 b4, rest)

/-- utf8.rs:43-160 `next`. -/
def next : List Byte → Option (R (Nat × List Byte))
  | [] => none
  | b :: rest => some (decodeFrom b rest)

theorem more_length {b1 limit bad rest v rest'} (h : more b1 limit bad rest = .ok (v, rest')) :
    rest'.length ≤ rest.length := by
  unfold more at h
  split at h
  · split at h
    · cases h
    · split at h
      · cases h
      · cases h; simp
  · cases h; simp

theorem decodeFrom_length {b rest v rest'} (h : decodeFrom b rest = .ok (v, rest')) :
    rest'.length ≤ rest.length := by
  unfold decodeFrom at h
  dsimp only at h
  split at h
  · cases h
  · simp only [R.bind_eq_ok, R.pure_eq] at h
    obtain ⟨⟨b2, r2⟩, h2, ⟨b3, r3⟩, h3, ⟨b4, r4⟩, h4, h5⟩ := h
    have := more_length h2
    have := more_length h3
    have := more_length h4
    cases h5
    simp only at *
    omega

/-- Collecting the iterator as `Result<Vec<u32>, _>`: all code points, or the first error. -/
def decodeAll (bytes : List Byte) : R (List Nat) :=
  match h : next bytes with
  | none => .ok []
  | some .err => .err
  | some .panic => .panic
  | some (.ok (c, rest)) =>
    match decodeAll rest with
    | .ok cs => .ok (c :: cs)
    | .err => .err
    | .panic => .panic
termination_by bytes.length
decreasing_by
  cases bytes with
  | nil => simp [next] at h
  | cons b r =>
    simp only [next, Option.some.injEq] at h
    have := decodeFrom_length h
    simp only [List.length_cons]; omega

end Keramics.Utf8
