import Verif.Base.R

/-!
Model of the single-byte code page decoders and encoders of keramics-encodings/src.

Generated from the source by script: every decoder and encoder `next` is a list of arms (a range of
bytes or code points and what it maps to), tried in order, and the constant tables are copied.
A table entry that is `None` in the source is `none`. Windows 932 is multi-byte and not modelled here.
-/

namespace Keramics.CodePage

/-- An arm of a decoder: the byte itself, or a table indexed by the byte minus the range start. -/
inductive DecAct where
  | ident
  | table (t : List (Option Nat))

/-- An arm of an encoder: the code point itself, fixed bytes, or a table indexed by the code point
minus the range start. -/
inductive EncAct where
  | ident
  | const (bytes : List Nat)
  | table (t : List (Option (List Nat)))

structure Page where
  name : String
  dec : List (Nat × Nat × DecAct)
  enc : List (Nat × Nat × EncAct)

/-- Interpretation of a decoder arm (for example iso8859_2.rs:60-64, windows1252.rs:83-92). -/
def DecAct.run (lo b : Nat) : DecAct → R Nat
  | .ident => .ok b
  | .table t =>
    match t[b - lo]? with
    | none => .panic
    | some none => .err
    | some (some c) => .ok c

/-- Interpretation of an encoder arm (for example windows1250.rs `EncoderWindows1250::next`);
`as u8` truncates. -/
def EncAct.run (lo c : Nat) : EncAct → R (List Nat)
  | .ident => .ok [c % 256]
  | .const bs => .ok bs
  | .table t =>
    match t[c - lo]? with
    | none => .panic
    | some none => .err
    | some (some bs) => .ok bs

/-- The first arm whose range contains the byte. -/
def decodeArms (arms : List (Nat × Nat × DecAct)) (b : Nat) : R Nat :=
  match arms with
  | [] => .panic
  | (lo, hi, act) :: arms => if lo ≤ b ∧ b < hi then act.run lo b else decodeArms arms b

/-- The first arm whose range contains the code point; the `_` arm is an error. -/
def encodeArms (arms : List (Nat × Nat × EncAct)) (c : Nat) : R (List Nat) :=
  match arms with
  | [] => .err
  | (lo, hi, act) :: arms => if lo ≤ c ∧ c < hi then act.run lo c else encodeArms arms c

/-- One item of a decoder. -/
def Page.decode (p : Page) (b : Nat) : R Nat := decodeArms p.dec b

/-- One item of an encoder. -/
def Page.encode (p : Page) (c : Nat) : R (List Nat) := encodeArms p.enc c

/-- Collecting a decoder over a byte string: all code points or the first error. -/
def Page.decodeAll (p : Page) : List Nat → R (List Nat)
  | [] => .ok []
  | b :: bs => do
    let c ← p.decode b
    let cs ← p.decodeAll bs
    pure (c :: cs)

/-- Collecting an encoder over a list of code points: all bytes or the first error. -/
def Page.encodeAll (p : Page) : List Nat → R (List Nat)
  | [] => .ok []
  | c :: cs => do
    let b ← p.encode c
    let bs ← p.encodeAll cs
    pure (b ++ bs)

/-- ascii.rs:43-52 (decoder), 78-94 (encoder), with their tables. -/
def ascii : Page where
  name := "ascii"
  dec := [
    (0x0, 0x100, .ident)]
  enc := [
    (0x0, 0x80, .ident)]

/-- iso8859_1.rs:43-52 (decoder), 78-94 (encoder), with their tables. -/
def iso8859_1 : Page where
  name := "iso8859_1"
  dec := [
    (0x0, 0x100, .ident)]
  enc := [
    (0x0, 0x100, .ident)]

/-- iso8859_10.rs:55-69 (decoder), 261-309 (encoder), with their tables. -/
def iso8859_10 : Page where
  name := "iso8859_10"
  dec := [
    (0x0, 0xa0, .ident),
    (0xa0, 0x100, .table [
      some 0xa0, some 0x104, some 0x112, some 0x122, some 0x12a, some 0x128, some 0x136,
      some 0xa7, some 0x13b, some 0x110, some 0x160, some 0x166, some 0x17d, some 0xad,
      some 0x16a, some 0x14a, some 0xb0, some 0x105, some 0x113, some 0x123, some 0x12b,
      some 0x129, some 0x137, some 0xb7, some 0x13c, some 0x111, some 0x161, some 0x167,
      some 0x17e, some 0x2015, some 0x16b, some 0x14b, some 0x100, some 0xc1, some 0xc2,
      some 0xc3, some 0xc4, some 0xc5, some 0xc6, some 0x12e, some 0x10c, some 0xc9, some 0x118,
      some 0xcb, some 0x116, some 0xcd, some 0xce, some 0xcf, some 0xd0, some 0x145, some 0x14c,
      some 0xd3, some 0xd4, some 0xd5, some 0xd6, some 0x168, some 0xd8, some 0x172, some 0xda,
      some 0xdb, some 0xdc, some 0xdd, some 0xde, some 0xdf, some 0x101, some 0xe1, some 0xe2,
      some 0xe3, some 0xe4, some 0xe5, some 0xe6, some 0x12f, some 0x10d, some 0xe9, some 0x119,
      some 0xeb, some 0x117, some 0xed, some 0xee, some 0xef, some 0xf0, some 0x146, some 0x14d,
      some 0xf3, some 0xf4, some 0xf5, some 0xf6, some 0x169, some 0xf8, some 0x173, some 0xfa,
      some 0xfb, some 0xfc, some 0xfd, some 0xfe, some 0x138])]
  enc := [
    (0x0, 0xa1, .ident),
    (0xc0, 0x150, .table [
      none, some [0xc1], some [0xc2], some [0xc3], some [0xc4], some [0xc5], some [0xc6], none,
      none, some [0xc9], none, some [0xcb], none, some [0xcd], some [0xce], some [0xcf],
      some [0xd0], none, none, some [0xd3], some [0xd4], some [0xd5], some [0xd6], none,
      some [0xd8], none, some [0xda], some [0xdb], some [0xdc], some [0xdd], some [0xde],
      some [0xdf], none, some [0xe1], some [0xe2], some [0xe3], some [0xe4], some [0xe5],
      some [0xe6], none, none, some [0xe9], none, some [0xeb], none, some [0xed], some [0xee],
      some [0xef], some [0xf0], none, none, some [0xf3], some [0xf4], some [0xf5], some [0xf6],
      none, some [0xf8], none, some [0xfa], some [0xfb], some [0xfc], some [0xfd], some [0xfe],
      none, some [0xc0], some [0xe0], none, none, some [0xa1], some [0xb1], none, none, none,
      none, none, none, some [0xc8], some [0xe8], none, none, some [0xa9], some [0xb9],
      some [0xa2], some [0xb2], none, none, some [0xcc], some [0xec], some [0xca], some [0xea],
      none, none, none, none, none, none, none, none, some [0xa3], some [0xb3], none, none, none,
      none, some [0xa5], some [0xb5], some [0xa4], some [0xb4], none, none, some [0xc7],
      some [0xe7], none, none, none, none, none, none, some [0xa6], some [0xb6], some [0xff],
      none, none, some [0xa8], some [0xb8], none, none, none, none, none, none, none, none,
      some [0xd1], some [0xf1], none, none, none, some [0xaf], some [0xbf], some [0xd2],
      some [0xf2], none, none]),
    (0x160, 0x170, .table [
      some [0xaa], some [0xba], none, none, none, none, some [0xab], some [0xbb], some [0xd7],
      some [0xf7], some [0xae], some [0xbe], none, none, none, none]),
    (0xa7, 0xa8, .const [0xa7]),
    (0xad, 0xae, .const [0xad]),
    (0xb0, 0xb1, .const [0xb0]),
    (0xb7, 0xb8, .const [0xb7]),
    (0x172, 0x173, .const [0xd9]),
    (0x173, 0x174, .const [0xf9]),
    (0x17d, 0x17e, .const [0xac]),
    (0x17e, 0x17f, .const [0xbc]),
    (0x2015, 0x2016, .const [0xbd])]

/-- iso8859_11.rs:142-161 (decoder), 286-314 (encoder), with their tables. -/
def iso8859_11 : Page where
  name := "iso8859_11"
  dec := [
    (0x0, 0xa0, .ident),
    (0xa0, 0x100, .table [
      some 0xa0, some 0xe01, some 0xe02, some 0xe03, some 0xe04, some 0xe05, some 0xe06,
      some 0xe07, some 0xe08, some 0xe09, some 0xe0a, some 0xe0b, some 0xe0c, some 0xe0d,
      some 0xe0e, some 0xe0f, some 0xe10, some 0xe11, some 0xe12, some 0xe13, some 0xe14,
      some 0xe15, some 0xe16, some 0xe17, some 0xe18, some 0xe19, some 0xe1a, some 0xe1b,
      some 0xe1c, some 0xe1d, some 0xe1e, some 0xe1f, some 0xe20, some 0xe21, some 0xe22,
      some 0xe23, some 0xe24, some 0xe25, some 0xe26, some 0xe27, some 0xe28, some 0xe29,
      some 0xe2a, some 0xe2b, some 0xe2c, some 0xe2d, some 0xe2e, some 0xe2f, some 0xe30,
      some 0xe31, some 0xe32, some 0xe33, some 0xe34, some 0xe35, some 0xe36, some 0xe37,
      some 0xe38, some 0xe39, some 0xe3a, none, none, none, none, some 0xe3f, some 0xe40,
      some 0xe41, some 0xe42, some 0xe43, some 0xe44, some 0xe45, some 0xe46, some 0xe47,
      some 0xe48, some 0xe49, some 0xe4a, some 0xe4b, some 0xe4c, some 0xe4d, some 0xe4e,
      some 0xe4f, some 0xe50, some 0xe51, some 0xe52, some 0xe53, some 0xe54, some 0xe55,
      some 0xe56, some 0xe57, some 0xe58, some 0xe59, some 0xe5a, some 0xe5b, none, none, none,
      none])]
  enc := [
    (0x0, 0xa1, .ident),
    (0xe00, 0xe60, .table [
      none, some [0xa1], some [0xa2], some [0xa3], some [0xa4], some [0xa5], some [0xa6],
      some [0xa7], some [0xa8], some [0xa9], some [0xaa], some [0xab], some [0xac], some [0xad],
      some [0xae], some [0xaf], some [0xb0], some [0xb1], some [0xb2], some [0xb3], some [0xb4],
      some [0xb5], some [0xb6], some [0xb7], some [0xb8], some [0xb9], some [0xba], some [0xbb],
      some [0xbc], some [0xbd], some [0xbe], some [0xbf], some [0xc0], some [0xc1], some [0xc2],
      some [0xc3], some [0xc4], some [0xc5], some [0xc6], some [0xc7], some [0xc8], some [0xc9],
      some [0xca], some [0xcb], some [0xcc], some [0xcd], some [0xce], some [0xcf], some [0xd0],
      some [0xd1], some [0xd2], some [0xd3], some [0xd4], some [0xd5], some [0xd6], some [0xd7],
      some [0xd8], some [0xd9], some [0xda], none, none, none, none, some [0xdf], some [0xe0],
      some [0xe1], some [0xe2], some [0xe3], some [0xe4], some [0xe5], some [0xe6], some [0xe7],
      some [0xe8], some [0xe9], some [0xea], some [0xeb], some [0xec], some [0xed], some [0xee],
      some [0xef], some [0xf0], some [0xf1], some [0xf2], some [0xf3], some [0xf4], some [0xf5],
      some [0xf6], some [0xf7], some [0xf8], some [0xf9], some [0xfa], some [0xfb], none, none,
      none, none])]

/-- iso8859_13.rs:55-69 (decoder), 333-372 (encoder), with their tables. -/
def iso8859_13 : Page where
  name := "iso8859_13"
  dec := [
    (0x0, 0xa0, .ident),
    (0xa0, 0x100, .table [
      some 0xa0, some 0x201d, some 0xa2, some 0xa3, some 0xa4, some 0x201e, some 0xa6, some 0xa7,
      some 0xd8, some 0xa9, some 0x156, some 0xab, some 0xac, some 0xad, some 0xae, some 0xc6,
      some 0xb0, some 0xb1, some 0xb2, some 0xb3, some 0x201c, some 0xb5, some 0xb6, some 0xb7,
      some 0xf8, some 0xb9, some 0x157, some 0xbb, some 0xbc, some 0xbd, some 0xbe, some 0xe6,
      some 0x104, some 0x12e, some 0x100, some 0x106, some 0xc4, some 0xc5, some 0x118,
      some 0x112, some 0x10c, some 0xc9, some 0x179, some 0x116, some 0x122, some 0x136,
      some 0x12a, some 0x13b, some 0x160, some 0x143, some 0x145, some 0xd3, some 0x14c,
      some 0xd5, some 0xd6, some 0xd7, some 0x172, some 0x141, some 0x15a, some 0x16a, some 0xdc,
      some 0x17b, some 0x17d, some 0xdf, some 0x105, some 0x12f, some 0x101, some 0x107,
      some 0xe4, some 0xe5, some 0x119, some 0x113, some 0x10d, some 0xe9, some 0x17a,
      some 0x117, some 0x123, some 0x137, some 0x12b, some 0x13c, some 0x161, some 0x144,
      some 0x146, some 0xf3, some 0x14d, some 0xf5, some 0xf6, some 0xf7, some 0x173, some 0x142,
      some 0x15b, some 0x16b, some 0xfc, some 0x17c, some 0x17e, some 0x2019])]
  enc := [
    (0x0, 0xa0, .ident),
    (0xa0, 0x180, .table [
      some [0xa0], none, some [0xa2], some [0xa3], some [0xa4], none, some [0xa6], some [0xa7],
      none, some [0xa9], none, some [0xab], some [0xac], some [0xad], some [0xae], none,
      some [0xb0], some [0xb1], some [0xb2], some [0xb3], none, some [0xb5], some [0xb6],
      some [0xb7], none, some [0xb9], none, some [0xbb], some [0xbc], some [0xbd], some [0xbe],
      none, none, none, none, none, some [0xc4], some [0xc5], some [0xaf], none, none,
      some [0xc9], none, none, none, none, none, none, none, none, none, some [0xd3], none,
      some [0xd5], some [0xd6], some [0xd7], some [0xa8], none, none, none, some [0xdc], none,
      none, some [0xdf], none, none, none, none, some [0xe4], some [0xe5], some [0xbf], none,
      none, some [0xe9], none, none, none, none, none, none, none, none, none, some [0xf3], none,
      some [0xf5], some [0xf6], some [0xf7], some [0xb8], none, none, none, some [0xfc], none,
      none, none, some [0xc2], some [0xe2], none, none, some [0xc0], some [0xe0], some [0xc3],
      some [0xe3], none, none, none, none, some [0xc8], some [0xe8], none, none, none, none,
      some [0xc7], some [0xe7], none, none, some [0xcb], some [0xeb], some [0xc6], some [0xe6],
      none, none, none, none, none, none, none, none, some [0xcc], some [0xec], none, none, none,
      none, none, none, some [0xce], some [0xee], none, none, some [0xc1], some [0xe1], none,
      none, none, none, none, none, some [0xcd], some [0xed], none, none, none, some [0xcf],
      some [0xef], none, none, none, none, some [0xd9], some [0xf9], some [0xd1], some [0xf1],
      some [0xd2], some [0xf2], none, none, none, none, none, some [0xd4], some [0xf4], none,
      none, none, none, none, none, none, none, some [0xaa], some [0xba], none, none,
      some [0xda], some [0xfa], none, none, none, none, some [0xd0], some [0xf0], none, none,
      none, none, none, none, none, none, some [0xdb], some [0xfb], none, none, none, none, none,
      none, some [0xd8], some [0xf8], none, none, none, none, none, some [0xca], some [0xea],
      some [0xdd], some [0xfd], some [0xde], some [0xfe], none]),
    (0x2018, 0x2020, .table [
      none, some [0xff], none, none, some [0xb4], some [0xa1], some [0xa5], none])]

/-- iso8859_14.rs:55-69 (decoder), 184-261 (encoder), with their tables. -/
def iso8859_14 : Page where
  name := "iso8859_14"
  dec := [
    (0x0, 0xa0, .ident),
    (0xa0, 0x100, .table [
      some 0xa0, some 0x1e02, some 0x1e03, some 0xa3, some 0x10a, some 0x10b, some 0x1e0a,
      some 0xa7, some 0x1e80, some 0xa9, some 0x1e82, some 0x1e0b, some 0x1ef2, some 0xad,
      some 0xae, some 0x178, some 0x1e1e, some 0x1e1f, some 0x120, some 0x121, some 0x1e40,
      some 0x1e41, some 0xb6, some 0x1e56, some 0x1e81, some 0x1e57, some 0x1e83, some 0x1e60,
      some 0x1ef3, some 0x1e84, some 0x1e85, some 0x1e61, some 0xc0, some 0xc1, some 0xc2,
      some 0xc3, some 0xc4, some 0xc5, some 0xc6, some 0xc7, some 0xc8, some 0xc9, some 0xca,
      some 0xcb, some 0xcc, some 0xcd, some 0xce, some 0xcf, some 0x174, some 0xd1, some 0xd2,
      some 0xd3, some 0xd4, some 0xd5, some 0xd6, some 0x1e6a, some 0xd8, some 0xd9, some 0xda,
      some 0xdb, some 0xdc, some 0xdd, some 0x176, some 0xdf, some 0xe0, some 0xe1, some 0xe2,
      some 0xe3, some 0xe4, some 0xe5, some 0xe6, some 0xe7, some 0xe8, some 0xe9, some 0xea,
      some 0xeb, some 0xec, some 0xed, some 0xee, some 0xef, some 0x175, some 0xf1, some 0xf2,
      some 0xf3, some 0xf4, some 0xf5, some 0xf6, some 0x1e6b, some 0xf8, some 0xf9, some 0xfa,
      some 0xfb, some 0xfc, some 0xfd, some 0x177, some 0xff])]
  enc := [
    (0x0, 0xa1, .ident),
    (0xc0, 0x100, .table [
      some [0xc0], some [0xc1], some [0xc2], some [0xc3], some [0xc4], some [0xc5], some [0xc6],
      some [0xc7], some [0xc8], some [0xc9], some [0xca], some [0xcb], some [0xcc], some [0xcd],
      some [0xce], some [0xcf], none, some [0xd1], some [0xd2], some [0xd3], some [0xd4],
      some [0xd5], some [0xd6], none, some [0xd8], some [0xd9], some [0xda], some [0xdb],
      some [0xdc], some [0xdd], none, some [0xdf], some [0xe0], some [0xe1], some [0xe2],
      some [0xe3], some [0xe4], some [0xe5], some [0xe6], some [0xe7], some [0xe8], some [0xe9],
      some [0xea], some [0xeb], some [0xec], some [0xed], some [0xee], some [0xef], none,
      some [0xf1], some [0xf2], some [0xf3], some [0xf4], some [0xf5], some [0xf6], none,
      some [0xf8], some [0xf9], some [0xfa], some [0xfb], some [0xfc], some [0xfd], none,
      some [0xff]]),
    (0x170, 0x178, .table [
      none, none, none, none, some [0xd0], some [0xf0], some [0xde], some [0xfe]]),
    (0x1e80, 0x1e88, .table [
      some [0xa8], some [0xb8], some [0xaa], some [0xba], some [0xbd], some [0xbe], none, none]),
    (0xa3, 0xa4, .const [0xa3]),
    (0xa7, 0xa8, .const [0xa7]),
    (0xa9, 0xaa, .const [0xa9]),
    (0xad, 0xae, .const [0xad]),
    (0xae, 0xaf, .const [0xae]),
    (0xb6, 0xb7, .const [0xb6]),
    (0x10a, 0x10b, .const [0xa4]),
    (0x10b, 0x10c, .const [0xa5]),
    (0x120, 0x121, .const [0xb2]),
    (0x121, 0x122, .const [0xb3]),
    (0x178, 0x179, .const [0xaf]),
    (0x1e02, 0x1e03, .const [0xa1]),
    (0x1e03, 0x1e04, .const [0xa2]),
    (0x1e0a, 0x1e0b, .const [0xa6]),
    (0x1e0b, 0x1e0c, .const [0xab]),
    (0x1e1e, 0x1e1f, .const [0xb0]),
    (0x1e1f, 0x1e20, .const [0xb1]),
    (0x1e40, 0x1e41, .const [0xb4]),
    (0x1e41, 0x1e42, .const [0xb5]),
    (0x1e56, 0x1e57, .const [0xb7]),
    (0x1e57, 0x1e58, .const [0xb9]),
    (0x1e60, 0x1e61, .const [0xbb]),
    (0x1e61, 0x1e62, .const [0xbf]),
    (0x1e6a, 0x1e6b, .const [0xd7]),
    (0x1e6b, 0x1e6c, .const [0xf7]),
    (0x1ef2, 0x1ef3, .const [0xac]),
    (0x1ef3, 0x1ef4, .const [0xbc])]

/-- iso8859_15.rs:49-63 (decoder), 124-160 (encoder), with their tables. -/
def iso8859_15 : Page where
  name := "iso8859_15"
  dec := [
    (0x0, 0xa0, .ident),
    (0xa0, 0xc0, .table [
      some 0xa0, some 0xa1, some 0xa2, some 0xa3, some 0x20ac, some 0xa5, some 0x160, some 0xa7,
      some 0x161, some 0xa9, some 0xaa, some 0xab, some 0xac, some 0xad, some 0xae, some 0xaf,
      some 0xb0, some 0xb1, some 0xb2, some 0xb3, some 0x17d, some 0xb5, some 0xb6, some 0xb7,
      some 0x17e, some 0xb9, some 0xba, some 0xbb, some 0x152, some 0x153, some 0x178, some 0xbf]),
    (0xc0, 0x100, .ident)]
  enc := [
    (0x0, 0xa0, .ident),
    (0xc0, 0x100, .ident),
    (0xa0, 0xc0, .table [
      some [0xa0], some [0xa1], some [0xa2], some [0xa3], none, some [0xa5], none, some [0xa7],
      none, some [0xa9], some [0xaa], some [0xab], some [0xac], some [0xad], some [0xae],
      some [0xaf], some [0xb0], some [0xb1], some [0xb2], some [0xb3], none, some [0xb5],
      some [0xb6], some [0xb7], none, some [0xb9], some [0xba], some [0xbb], none, none, none,
      some [0xbf]]),
    (0x152, 0x153, .const [0xbc]),
    (0x153, 0x154, .const [0xbd]),
    (0x160, 0x161, .const [0xa6]),
    (0x161, 0x162, .const [0xa8]),
    (0x178, 0x179, .const [0xbe]),
    (0x17d, 0x17e, .const [0xb4]),
    (0x17e, 0x17f, .const [0xb8]),
    (0x20ac, 0x20ad, .const [0xa4])]

/-- iso8859_16.rs:55-69 (decoder), 243-320 (encoder), with their tables. -/
def iso8859_16 : Page where
  name := "iso8859_16"
  dec := [
    (0x0, 0xa0, .ident),
    (0xa0, 0x100, .table [
      some 0xa0, some 0x104, some 0x105, some 0x141, some 0x20ac, some 0x201e, some 0x160,
      some 0xa7, some 0x161, some 0xa9, some 0x218, some 0xab, some 0x179, some 0xad, some 0x17a,
      some 0x17b, some 0xb0, some 0xb1, some 0x10c, some 0x142, some 0x17d, some 0x201d,
      some 0xb6, some 0xb7, some 0x17e, some 0x10d, some 0x219, some 0xbb, some 0x152,
      some 0x153, some 0x178, some 0x17c, some 0xc0, some 0xc1, some 0xc2, some 0x102, some 0xc4,
      some 0x106, some 0xc6, some 0xc7, some 0xc8, some 0xc9, some 0xca, some 0xcb, some 0xcc,
      some 0xcd, some 0xce, some 0xcf, some 0x110, some 0x143, some 0xd2, some 0xd3, some 0xd4,
      some 0x150, some 0xd6, some 0x15a, some 0x170, some 0xd9, some 0xda, some 0xdb, some 0xdc,
      some 0x118, some 0x21a, some 0xdf, some 0xe0, some 0xe1, some 0xe2, some 0x103, some 0xe4,
      some 0x107, some 0xe6, some 0xe7, some 0xe8, some 0xe9, some 0xea, some 0xeb, some 0xec,
      some 0xed, some 0xee, some 0xef, some 0x111, some 0x144, some 0xf2, some 0xf3, some 0xf4,
      some 0x151, some 0xf6, some 0x15b, some 0x171, some 0xf9, some 0xfa, some 0xfb, some 0xfc,
      some 0x119, some 0x21b, some 0xff])]
  enc := [
    (0x0, 0xa1, .ident),
    (0xa8, 0x108, .table [
      none, some [0xa9], none, some [0xab], none, some [0xad], none, none, some [0xb0],
      some [0xb1], none, none, none, none, some [0xb6], some [0xb7], none, none, none,
      some [0xbb], none, none, none, none, some [0xc0], some [0xc1], some [0xc2], none,
      some [0xc4], none, some [0xc6], some [0xc7], some [0xc8], some [0xc9], some [0xca],
      some [0xcb], some [0xcc], some [0xcd], some [0xce], some [0xcf], none, none, some [0xd2],
      some [0xd3], some [0xd4], none, some [0xd6], none, none, some [0xd9], some [0xda],
      some [0xdb], some [0xdc], none, none, some [0xdf], some [0xe0], some [0xe1], some [0xe2],
      none, some [0xe4], none, some [0xe6], some [0xe7], some [0xe8], some [0xe9], some [0xea],
      some [0xeb], some [0xec], some [0xed], some [0xee], some [0xef], none, none, some [0xf2],
      some [0xf3], some [0xf4], none, some [0xf6], none, none, some [0xf9], some [0xfa],
      some [0xfb], some [0xfc], none, none, some [0xff], none, none, some [0xc3], some [0xe3],
      some [0xa1], some [0xa2], some [0xc5], some [0xe5]]),
    (0x140, 0x158, .table [
      none, some [0xa3], some [0xb3], some [0xd1], some [0xf1], none, none, none, none, none,
      none, none, none, none, none, none, some [0xd5], some [0xf5], some [0xbc], some [0xbd],
      none, none, none, none]),
    (0x178, 0x180, .table [
      some [0xbe], some [0xac], some [0xae], some [0xaf], some [0xbf], some [0xb4], some [0xb8],
      none]),
    (0x218, 0x220, .table [
      some [0xaa], some [0xba], some [0xde], some [0xfe], none, none, none, none]),
    (0xa7, 0xa8, .const [0xa7]),
    (0x10c, 0x10d, .const [0xb2]),
    (0x10d, 0x10e, .const [0xb9]),
    (0x110, 0x111, .const [0xd0]),
    (0x111, 0x112, .const [0xf0]),
    (0x118, 0x119, .const [0xdd]),
    (0x119, 0x11a, .const [0xfd]),
    (0x15a, 0x15b, .const [0xd7]),
    (0x15b, 0x15c, .const [0xf7]),
    (0x160, 0x161, .const [0xa6]),
    (0x161, 0x162, .const [0xa8]),
    (0x170, 0x171, .const [0xd8]),
    (0x171, 0x172, .const [0xf8]),
    (0x201d, 0x201e, .const [0xb5]),
    (0x201e, 0x201f, .const [0xa5]),
    (0x20ac, 0x20ad, .const [0xa4])]

/-- iso8859_2.rs:55-69 (decoder), 312-363 (encoder), with their tables. -/
def iso8859_2 : Page where
  name := "iso8859_2"
  dec := [
    (0x0, 0xa0, .ident),
    (0xa0, 0x100, .table [
      some 0xa0, some 0x104, some 0x2d8, some 0x141, some 0xa4, some 0x13d, some 0x15a,
      some 0xa7, some 0xa8, some 0x160, some 0x15e, some 0x164, some 0x179, some 0xad,
      some 0x17d, some 0x17b, some 0xb0, some 0x105, some 0x2db, some 0x142, some 0xb4,
      some 0x13e, some 0x15b, some 0x2c7, some 0xb8, some 0x161, some 0x15f, some 0x165,
      some 0x17a, some 0x2dd, some 0x17e, some 0x17c, some 0x154, some 0xc1, some 0xc2,
      some 0x102, some 0xc4, some 0x139, some 0x106, some 0xc7, some 0x10c, some 0xc9,
      some 0x118, some 0xcb, some 0x11a, some 0xcd, some 0xce, some 0x10e, some 0x110,
      some 0x143, some 0x147, some 0xd3, some 0xd4, some 0x150, some 0xd6, some 0xd7, some 0x158,
      some 0x16e, some 0xda, some 0x170, some 0xdc, some 0xdd, some 0x162, some 0xdf, some 0x155,
      some 0xe1, some 0xe2, some 0x103, some 0xe4, some 0x13a, some 0x107, some 0xe7, some 0x10d,
      some 0xe9, some 0x119, some 0xeb, some 0x11b, some 0xed, some 0xee, some 0x10f, some 0x111,
      some 0x144, some 0x148, some 0xf3, some 0xf4, some 0x151, some 0xf6, some 0xf7, some 0x159,
      some 0x16f, some 0xfa, some 0x171, some 0xfc, some 0xfd, some 0x163, some 0x2d9])]
  enc := [
    (0x0, 0xa0, .ident),
    (0xa0, 0x120, .table [
      some [0xa0], none, none, none, some [0xa4], none, none, some [0xa7], some [0xa8], none,
      none, none, none, some [0xad], none, none, some [0xb0], none, none, none, some [0xb4],
      none, none, none, some [0xb8], none, none, none, none, none, none, none, none, some [0xc1],
      some [0xc2], none, some [0xc4], none, none, some [0xc7], none, some [0xc9], none,
      some [0xcb], none, some [0xcd], some [0xce], none, none, none, none, some [0xd3],
      some [0xd4], none, some [0xd6], some [0xd7], none, none, some [0xda], none, some [0xdc],
      some [0xdd], none, some [0xdf], none, some [0xe1], some [0xe2], none, some [0xe4], none,
      none, some [0xe7], none, some [0xe9], none, some [0xeb], none, some [0xed], some [0xee],
      none, none, none, none, some [0xf3], some [0xf4], none, some [0xf6], some [0xf7], none,
      none, some [0xfa], none, some [0xfc], some [0xfd], none, none, none, none, some [0xc3],
      some [0xe3], some [0xa1], some [0xb1], some [0xc6], some [0xe6], none, none, none, none,
      some [0xc8], some [0xe8], some [0xcf], some [0xef], some [0xd0], some [0xf0], none, none,
      none, none, none, none, some [0xca], some [0xea], some [0xcc], some [0xec], none, none,
      none, none]),
    (0x138, 0x180, .table [
      none, some [0xc5], some [0xe5], none, none, some [0xa5], some [0xb5], none, none,
      some [0xa3], some [0xb3], some [0xd1], some [0xf1], none, none, some [0xd2], some [0xf2],
      none, none, none, none, none, none, none, some [0xd5], some [0xf5], none, none,
      some [0xc0], some [0xe0], none, none, some [0xd8], some [0xf8], some [0xa6], some [0xb6],
      none, none, some [0xaa], some [0xba], some [0xa9], some [0xb9], some [0xde], some [0xfe],
      some [0xab], some [0xbb], none, none, none, none, none, none, none, none, some [0xd9],
      some [0xf9], some [0xdb], some [0xfb], none, none, none, none, none, none, none,
      some [0xac], some [0xbc], some [0xaf], some [0xbf], some [0xae], some [0xbe], none]),
    (0x2d8, 0x2e0, .table [
      some [0xa2], some [0xff], some [0x1a], some [0xb2], some [0x1a], some [0xbd], some [0x1a],
      none]),
    (0x2c7, 0x2c8, .const [0xb7])]

/-- iso8859_3.rs:142-161 (decoder), 353-398 (encoder), with their tables. -/
def iso8859_3 : Page where
  name := "iso8859_3"
  dec := [
    (0x0, 0xa0, .ident),
    (0xa0, 0x100, .table [
      some 0xa0, some 0x126, some 0x2d8, some 0xa3, some 0xa4, none, some 0x124, some 0xa7,
      some 0xa8, some 0x130, some 0x15e, some 0x11e, some 0x134, some 0xad, none, some 0x17b,
      some 0xb0, some 0x127, some 0xb2, some 0xb3, some 0xb4, some 0xb5, some 0x125, some 0xb7,
      some 0xb8, some 0x131, some 0x15f, some 0x11f, some 0x135, some 0xbd, none, some 0x17c,
      some 0xc0, some 0xc1, some 0xc2, none, some 0xc4, some 0x10a, some 0x108, some 0xc7,
      some 0xc8, some 0xc9, some 0xca, some 0xcb, some 0xcc, some 0xcd, some 0xce, some 0xcf,
      none, some 0xd1, some 0xd2, some 0xd3, some 0xd4, some 0x120, some 0xd6, some 0xd7,
      some 0x11c, some 0xd9, some 0xda, some 0xdb, some 0xdc, some 0x16c, some 0x15c, some 0xdf,
      some 0xe0, some 0xe1, some 0xe2, none, some 0xe4, some 0x10b, some 0x109, some 0xe7,
      some 0xe8, some 0xe9, some 0xea, some 0xeb, some 0xec, some 0xed, some 0xee, some 0xef,
      none, some 0xf1, some 0xf2, some 0xf3, some 0xf4, some 0x121, some 0xf6, some 0xf7,
      some 0x11d, some 0xf9, some 0xfa, some 0xfb, some 0xfc, some 0x16d, some 0x15d, some 0x2d9])]
  enc := [
    (0x0, 0xa0, .ident),
    (0xa0, 0x138, .table [
      some [0xa0], none, none, some [0xa3], some [0xa4], none, none, some [0xa7], some [0xa8],
      none, none, none, none, some [0xad], none, none, some [0xb0], none, some [0xb2],
      some [0xb3], some [0xb4], some [0xb5], none, some [0xb7], some [0xb8], none, none, none,
      none, some [0xbd], none, none, some [0xc0], some [0xc1], some [0xc2], none, some [0xc4],
      none, none, some [0xc7], some [0xc8], some [0xc9], some [0xca], some [0xcb], some [0xcc],
      some [0xcd], some [0xce], some [0xcf], none, some [0xd1], some [0xd2], some [0xd3],
      some [0xd4], none, some [0xd6], some [0xd7], none, some [0xd9], some [0xda], some [0xdb],
      some [0xdc], none, none, some [0xdf], some [0xe0], some [0xe1], some [0xe2], none,
      some [0xe4], none, none, some [0xe7], some [0xe8], some [0xe9], some [0xea], some [0xeb],
      some [0xec], some [0xed], some [0xee], some [0xef], none, some [0xf1], some [0xf2],
      some [0xf3], some [0xf4], none, some [0xf6], some [0xf7], none, some [0xf9], some [0xfa],
      some [0xfb], some [0xfc], none, none, none, none, none, none, none, none, none, none, none,
      some [0xc6], some [0xe6], some [0xc5], some [0xe5], none, none, none, none, none, none,
      none, none, none, none, none, none, none, none, none, none, some [0xd8], some [0xf8],
      some [0xab], some [0xbb], some [0xd5], some [0xf5], none, none, some [0xa6], some [0xb6],
      some [0xa1], some [0xb1], none, none, none, none, none, none, none, none, some [0xa9],
      some [0xb9], none, none, some [0xac], some [0xbc], none, none]),
    (0x158, 0x160, .table [
      none, none, none, none, some [0xde], some [0xfe], some [0xaa], some [0xba]]),
    (0x16c, 0x16d, .const [0xdd]),
    (0x16d, 0x16e, .const [0xfd]),
    (0x17b, 0x17c, .const [0xaf]),
    (0x17c, 0x17d, .const [0xbf]),
    (0x2d8, 0x2d9, .const [0xa2]),
    (0x2d9, 0x2da, .const [0xff])]

/-- iso8859_4.rs:55-69 (decoder), 322-353 (encoder), with their tables. -/
def iso8859_4 : Page where
  name := "iso8859_4"
  dec := [
    (0x0, 0xa0, .ident),
    (0xa0, 0x100, .table [
      some 0xa0, some 0x104, some 0x138, some 0x156, some 0xa4, some 0x128, some 0x13b,
      some 0xa7, some 0xa8, some 0x160, some 0x112, some 0x122, some 0x166, some 0xad,
      some 0x17d, some 0xaf, some 0xb0, some 0x105, some 0x2db, some 0x157, some 0xb4,
      some 0x129, some 0x13c, some 0x2c7, some 0xb8, some 0x161, some 0x113, some 0x123,
      some 0x167, some 0x14a, some 0x17e, some 0x14b, some 0x100, some 0xc1, some 0xc2,
      some 0xc3, some 0xc4, some 0xc5, some 0xc6, some 0x12e, some 0x10c, some 0xc9, some 0x118,
      some 0xcb, some 0x116, some 0xcd, some 0xce, some 0x12a, some 0x110, some 0x145,
      some 0x14c, some 0x136, some 0xd4, some 0xd5, some 0xd6, some 0xd7, some 0xd8, some 0x172,
      some 0xda, some 0xdb, some 0xdc, some 0x168, some 0x16a, some 0xdf, some 0x101, some 0xe1,
      some 0xe2, some 0xe3, some 0xe4, some 0xe5, some 0xe6, some 0x12f, some 0x10d, some 0xe9,
      some 0x119, some 0xeb, some 0x117, some 0xed, some 0xee, some 0x12b, some 0x111,
      some 0x146, some 0x14d, some 0x137, some 0xf4, some 0xf5, some 0xf6, some 0xf7, some 0xf8,
      some 0x173, some 0xfa, some 0xfb, some 0xfc, some 0x169, some 0x16b, some 0x2d9])]
  enc := [
    (0x0, 0xa0, .ident),
    (0xa0, 0x180, .table [
      some [0xa0], none, none, none, some [0xa4], none, none, some [0xa7], some [0xa8], none,
      none, none, none, some [0xad], none, some [0xaf], some [0xb0], none, none, none,
      some [0xb4], none, none, none, some [0xb8], none, none, none, none, none, none, none, none,
      some [0xc1], some [0xc2], some [0xc3], some [0xc4], some [0xc5], some [0xc6], none, none,
      some [0xc9], none, some [0xcb], none, some [0xcd], some [0xce], none, none, none, none,
      none, some [0xd4], some [0xd5], some [0xd6], some [0xd7], some [0xd8], none, some [0xda],
      some [0xdb], some [0xdc], none, none, some [0xdf], none, some [0xe1], some [0xe2],
      some [0xe3], some [0xe4], some [0xe5], some [0xe6], none, none, some [0xe9], none,
      some [0xeb], none, some [0xed], some [0xee], none, none, none, none, none, some [0xf4],
      some [0xf5], some [0xf6], some [0xf7], some [0xf8], none, some [0xfa], some [0xfb],
      some [0xfc], none, none, none, some [0xc0], some [0xe0], none, none, some [0xa1],
      some [0xb1], none, none, none, none, none, none, some [0xc8], some [0xe8], none, none,
      some [0xd0], some [0xf0], some [0xaa], some [0xba], none, none, some [0xcc], some [0xec],
      some [0xca], some [0xea], none, none, none, none, none, none, none, none, some [0xab],
      some [0xbb], none, none, none, none, some [0xa5], some [0xb5], some [0xcf], some [0xef],
      none, none, some [0xc7], some [0xe7], none, none, none, none, none, none, some [0xd3],
      some [0xf3], some [0xa2], none, none, some [0xa6], some [0xb6], none, none, none, none,
      none, none, none, none, some [0xd1], some [0xf1], none, none, none, some [0xbd],
      some [0xbf], some [0xd2], some [0xf2], none, none, none, none, none, none, none, none,
      some [0xa3], some [0xb3], none, none, none, none, none, none, none, none, some [0xa9],
      some [0xb9], none, none, none, none, some [0xac], some [0xbc], some [0xdd], some [0xfd],
      some [0xde], some [0xfe], none, none, none, none, none, none, some [0xd9], some [0xf9],
      none, none, none, none, none, none, none, none, none, some [0xae], some [0xbe], some [0x1a]]),
    (0x2c7, 0x2c8, .const [0xb7]),
    (0x2d9, 0x2da, .const [0xff]),
    (0x2db, 0x2dc, .const [0xb2])]

/-- iso8859_5.rs:55-69 (decoder), 194-225 (encoder), with their tables. -/
def iso8859_5 : Page where
  name := "iso8859_5"
  dec := [
    (0x0, 0xa0, .ident),
    (0xa0, 0x100, .table [
      some 0xa0, some 0x401, some 0x402, some 0x403, some 0x404, some 0x405, some 0x406,
      some 0x407, some 0x408, some 0x409, some 0x40a, some 0x40b, some 0x40c, some 0xad,
      some 0x40e, some 0x40f, some 0x410, some 0x411, some 0x412, some 0x413, some 0x414,
      some 0x415, some 0x416, some 0x417, some 0x418, some 0x419, some 0x41a, some 0x41b,
      some 0x41c, some 0x41d, some 0x41e, some 0x41f, some 0x420, some 0x421, some 0x422,
      some 0x423, some 0x424, some 0x425, some 0x426, some 0x427, some 0x428, some 0x429,
      some 0x42a, some 0x42b, some 0x42c, some 0x42d, some 0x42e, some 0x42f, some 0x430,
      some 0x431, some 0x432, some 0x433, some 0x434, some 0x435, some 0x436, some 0x437,
      some 0x438, some 0x439, some 0x43a, some 0x43b, some 0x43c, some 0x43d, some 0x43e,
      some 0x43f, some 0x440, some 0x441, some 0x442, some 0x443, some 0x444, some 0x445,
      some 0x446, some 0x447, some 0x448, some 0x449, some 0x44a, some 0x44b, some 0x44c,
      some 0x44d, some 0x44e, some 0x44f, some 0x2116, some 0x451, some 0x452, some 0x453,
      some 0x454, some 0x455, some 0x456, some 0x457, some 0x458, some 0x459, some 0x45a,
      some 0x45b, some 0x45c, some 0xa7, some 0x45e, some 0x45f])]
  enc := [
    (0x0, 0xa1, .ident),
    (0x400, 0x460, .table [
      none, some [0xa1], some [0xa2], some [0xa3], some [0xa4], some [0xa5], some [0xa6],
      some [0xa7], some [0xa8], some [0xa9], some [0xaa], some [0xab], some [0xac], none,
      some [0xae], some [0xaf], some [0xb0], some [0xb1], some [0xb2], some [0xb3], some [0xb4],
      some [0xb5], some [0xb6], some [0xb7], some [0xb8], some [0xb9], some [0xba], some [0xbb],
      some [0xbc], some [0xbd], some [0xbe], some [0xbf], some [0xc0], some [0xc1], some [0xc2],
      some [0xc3], some [0xc4], some [0xc5], some [0xc6], some [0xc7], some [0xc8], some [0xc9],
      some [0xca], some [0xcb], some [0xcc], some [0xcd], some [0xce], some [0xcf], some [0xd0],
      some [0xd1], some [0xd2], some [0xd3], some [0xd4], some [0xd5], some [0xd6], some [0xd7],
      some [0xd8], some [0xd9], some [0xda], some [0xdb], some [0xdc], some [0xdd], some [0xde],
      some [0xdf], some [0xe0], some [0xe1], some [0xe2], some [0xe3], some [0xe4], some [0xe5],
      some [0xe6], some [0xe7], some [0xe8], some [0xe9], some [0xea], some [0xeb], some [0xec],
      some [0xed], some [0xee], some [0xef], none, some [0xf1], some [0xf2], some [0xf3],
      some [0xf4], some [0xf5], some [0xf6], some [0xf7], some [0xf8], some [0xf9], some [0xfa],
      some [0xfb], some [0xfc], none, some [0xfe], some [0xff]]),
    (0xa7, 0xa8, .const [0xfd]),
    (0xad, 0xae, .const [0xad]),
    (0x2116, 0x2117, .const [0xf0])]

/-- iso8859_6.rs:142-161 (decoder), 254-285 (encoder), with their tables. -/
def iso8859_6 : Page where
  name := "iso8859_6"
  dec := [
    (0x0, 0xa0, .ident),
    (0xa0, 0x100, .table [
      some 0xa0, none, none, none, some 0xa4, none, none, none, none, none, none, none,
      some 0x60c, some 0xad, none, none, none, none, none, none, none, none, none, none, none,
      none, none, some 0x61b, none, none, none, some 0x61f, none, some 0x621, some 0x622,
      some 0x623, some 0x624, some 0x625, some 0x626, some 0x627, some 0x628, some 0x629,
      some 0x62a, some 0x62b, some 0x62c, some 0x62d, some 0x62e, some 0x62f, some 0x630,
      some 0x631, some 0x632, some 0x633, some 0x634, some 0x635, some 0x636, some 0x637,
      some 0x638, some 0x639, some 0x63a, none, none, none, none, none, some 0x640, some 0x641,
      some 0x642, some 0x643, some 0x644, some 0x645, some 0x646, some 0x647, some 0x648,
      some 0x649, some 0x64a, some 0x64b, some 0x64c, some 0x64d, some 0x64e, some 0x64f,
      some 0x650, some 0x651, some 0x652, none, none, none, none, none, none, none, none, none,
      none, none, none, none])]
  enc := [
    (0x0, 0xa1, .ident),
    (0x618, 0x658, .table [
      none, none, none, some [0xbb], none, none, none, some [0xbf], none, some [0xc1],
      some [0xc2], some [0xc3], some [0xc4], some [0xc5], some [0xc6], some [0xc7], some [0xc8],
      some [0xc9], some [0xca], some [0xcb], some [0xcc], some [0xcd], some [0xce], some [0xcf],
      some [0xd0], some [0xd1], some [0xd2], some [0xd3], some [0xd4], some [0xd5], some [0xd6],
      some [0xd7], some [0xd8], some [0xd9], some [0xda], none, none, none, none, none,
      some [0xe0], some [0xe1], some [0xe2], some [0xe3], some [0xe4], some [0xe5], some [0xe6],
      some [0xe7], some [0xe8], some [0xe9], some [0xea], some [0xeb], some [0xec], some [0xed],
      some [0xee], some [0xef], some [0xf0], some [0xf1], some [0xf2], none, none, none, none,
      none]),
    (0xa4, 0xa5, .const [0xa4]),
    (0xad, 0xae, .const [0xad]),
    (0x60c, 0x60d, .const [0xac])]

/-- iso8859_7.rs:142-161 (decoder), 297-344 (encoder), with their tables. -/
def iso8859_7 : Page where
  name := "iso8859_7"
  dec := [
    (0x0, 0xa0, .ident),
    (0xa0, 0x100, .table [
      some 0xa0, some 0x2018, some 0x2019, some 0xa3, some 0x20ac, some 0x20af, some 0xa6,
      some 0xa7, some 0xa8, some 0xa9, some 0x37a, some 0xab, some 0xac, some 0xad, none,
      some 0x2015, some 0xb0, some 0xb1, some 0xb2, some 0xb3, some 0x384, some 0x385,
      some 0x386, some 0xb7, some 0x388, some 0x389, some 0x38a, some 0xbb, some 0x38c,
      some 0xbd, some 0x38e, some 0x38f, some 0x390, some 0x391, some 0x392, some 0x393,
      some 0x394, some 0x395, some 0x396, some 0x397, some 0x398, some 0x399, some 0x39a,
      some 0x39b, some 0x39c, some 0x39d, some 0x39e, some 0x39f, some 0x3a0, some 0x3a1, none,
      some 0x3a3, some 0x3a4, some 0x3a5, some 0x3a6, some 0x3a7, some 0x3a8, some 0x3a9,
      some 0x3aa, some 0x3ab, some 0x3ac, some 0x3ad, some 0x3ae, some 0x3af, some 0x3b0,
      some 0x3b1, some 0x3b2, some 0x3b3, some 0x3b4, some 0x3b5, some 0x3b6, some 0x3b7,
      some 0x3b8, some 0x3b9, some 0x3ba, some 0x3bb, some 0x3bc, some 0x3bd, some 0x3be,
      some 0x3bf, some 0x3c0, some 0x3c1, some 0x3c2, some 0x3c3, some 0x3c4, some 0x3c5,
      some 0x3c6, some 0x3c7, some 0x3c8, some 0x3c9, some 0x3ca, some 0x3cb, some 0x3cc,
      some 0x3cd, some 0x3ce, none])]
  enc := [
    (0x0, 0xa0, .ident),
    (0xa0, 0xb8, .table [
      some [0xa0], none, none, some [0xa3], none, none, some [0xa6], some [0xa7], some [0xa8],
      some [0xa9], none, some [0xab], some [0xac], some [0xad], none, none, some [0xb0],
      some [0xb1], some [0xb2], some [0xb3], none, none, none, some [0xb7]]),
    (0x380, 0x3d0, .table [
      none, none, none, none, some [0xb4], some [0xb5], some [0xb6], none, some [0xb8],
      some [0xb9], some [0xba], none, some [0xbc], none, some [0xbe], some [0xbf], some [0xc0],
      some [0xc1], some [0xc2], some [0xc3], some [0xc4], some [0xc5], some [0xc6], some [0xc7],
      some [0xc8], some [0xc9], some [0xca], some [0xcb], some [0xcc], some [0xcd], some [0xce],
      some [0xcf], some [0xd0], some [0xd1], none, some [0xd3], some [0xd4], some [0xd5],
      some [0xd6], some [0xd7], some [0xd8], some [0xd9], some [0xda], some [0xdb], some [0xdc],
      some [0xdd], some [0xde], some [0xdf], some [0xe0], some [0xe1], some [0xe2], some [0xe3],
      some [0xe4], some [0xe5], some [0xe6], some [0xe7], some [0xe8], some [0xe9], some [0xea],
      some [0xeb], some [0xec], some [0xed], some [0xee], some [0xef], some [0xf0], some [0xf1],
      some [0xf2], some [0xf3], some [0xf4], some [0xf5], some [0xf6], some [0xf7], some [0xf8],
      some [0xf9], some [0xfa], some [0xfb], some [0xfc], some [0xfd], some [0xfe], none]),
    (0xbb, 0xbc, .const [0xbb]),
    (0xbd, 0xbe, .const [0xbd]),
    (0x37a, 0x37b, .const [0xaa]),
    (0x2015, 0x2016, .const [0xaf]),
    (0x2018, 0x2019, .const [0xa1]),
    (0x2019, 0x201a, .const [0xa2]),
    (0x20ac, 0x20ad, .const [0xa4]),
    (0x20af, 0x20b0, .const [0xa5])]

/-- iso8859_8.rs:142-161 (decoder), 257-301 (encoder), with their tables. -/
def iso8859_8 : Page where
  name := "iso8859_8"
  dec := [
    (0x0, 0xa0, .ident),
    (0xa0, 0x100, .table [
      some 0xa0, none, some 0xa2, some 0xa3, some 0xa4, some 0xa5, some 0xa6, some 0xa7,
      some 0xa8, some 0xa9, some 0xd7, some 0xab, some 0xac, some 0xad, some 0xae, some 0xaf,
      some 0xb0, some 0xb1, some 0xb2, some 0xb3, some 0xb4, some 0xb5, some 0xb6, some 0xb7,
      some 0xb8, some 0xb9, some 0xf7, some 0xbb, some 0xbc, some 0xbd, some 0xbe, none, none,
      none, none, none, none, none, none, none, none, none, none, none, none, none, none, none,
      none, none, none, none, none, none, none, none, none, none, none, none, none, none, none,
      some 0x2017, some 0x5d0, some 0x5d1, some 0x5d2, some 0x5d3, some 0x5d4, some 0x5d5,
      some 0x5d6, some 0x5d7, some 0x5d8, some 0x5d9, some 0x5da, some 0x5db, some 0x5dc,
      some 0x5dd, some 0x5de, some 0x5df, some 0x5e0, some 0x5e1, some 0x5e2, some 0x5e3,
      some 0x5e4, some 0x5e5, some 0x5e6, some 0x5e7, some 0x5e8, some 0x5e9, some 0x5ea, none,
      none, some 0x200e, some 0x200f, none])]
  enc := [
    (0x0, 0xa0, .ident),
    (0xa0, 0xc0, .table [
      some [0xa0], none, some [0xa2], some [0xa3], some [0xa4], some [0xa5], some [0xa6],
      some [0xa7], some [0xa8], some [0xa9], none, some [0xab], some [0xac], some [0xad],
      some [0xae], some [0xaf], some [0xb0], some [0xb1], some [0xb2], some [0xb3], some [0xb4],
      some [0xb5], some [0xb6], some [0xb7], some [0xb8], some [0xb9], none, some [0xbb],
      some [0xbc], some [0xbd], some [0xbe], none]),
    (0x5d0, 0x5f0, .table [
      some [0xe0], some [0xe1], some [0xe2], some [0xe3], some [0xe4], some [0xe5], some [0xe6],
      some [0xe7], some [0xe8], some [0xe9], some [0xea], some [0xeb], some [0xec], some [0xed],
      some [0xee], some [0xef], some [0xf0], some [0xf1], some [0xf2], some [0xf3], some [0xf4],
      some [0xf5], some [0xf6], some [0xf7], some [0xf8], some [0xf9], some [0xfa], none, none,
      none, none, none]),
    (0xd7, 0xd8, .const [0xaa]),
    (0xf7, 0xf8, .const [0xba]),
    (0x200e, 0x200f, .const [0xfd]),
    (0x200f, 0x2010, .const [0xfe]),
    (0x2017, 0x2018, .const [0xdf])]

/-- iso8859_9.rs:51-65 (decoder), 142-176 (encoder), with their tables. -/
def iso8859_9 : Page where
  name := "iso8859_9"
  dec := [
    (0x0, 0xd0, .ident),
    (0xd0, 0x100, .table [
      some 0x11e, some 0xd1, some 0xd2, some 0xd3, some 0xd4, some 0xd5, some 0xd6, some 0xd7,
      some 0xd8, some 0xd9, some 0xda, some 0xdb, some 0xdc, some 0x130, some 0x15e, some 0xdf,
      some 0xe0, some 0xe1, some 0xe2, some 0xe3, some 0xe4, some 0xe5, some 0xe6, some 0xe7,
      some 0xe8, some 0xe9, some 0xea, some 0xeb, some 0xec, some 0xed, some 0xee, some 0xef,
      some 0x11f, some 0xf1, some 0xf2, some 0xf3, some 0xf4, some 0xf5, some 0xf6, some 0xf7,
      some 0xf8, some 0xf9, some 0xfa, some 0xfb, some 0xfc, some 0x131, some 0x15f, some 0xff])]
  enc := [
    (0x0, 0xd0, .ident),
    (0xd0, 0x100, .table [
      none, some [0xd1], some [0xd2], some [0xd3], some [0xd4], some [0xd5], some [0xd6],
      some [0xd7], some [0xd8], some [0xd9], some [0xda], some [0xdb], some [0xdc], none, none,
      some [0xdf], some [0xe0], some [0xe1], some [0xe2], some [0xe3], some [0xe4], some [0xe5],
      some [0xe6], some [0xe7], some [0xe8], some [0xe9], some [0xea], some [0xeb], some [0xec],
      some [0xed], some [0xee], some [0xef], none, some [0xf1], some [0xf2], some [0xf3],
      some [0xf4], some [0xf5], some [0xf6], some [0xf7], some [0xf8], some [0xf9], some [0xfa],
      some [0xfb], some [0xfc], none, none, some [0xff]]),
    (0x11e, 0x11f, .const [0xd0]),
    (0x11f, 0x120, .const [0xf0]),
    (0x130, 0x131, .const [0xdd]),
    (0x131, 0x132, .const [0xfd]),
    (0x15e, 0x15f, .const [0xde]),
    (0x15f, 0x160, .const [0xfe])]

/-- koi8_r.rs:58-72 (decoder), 208-281 (encoder), with their tables. -/
def koi8R : Page where
  name := "koi8_r"
  dec := [
    (0x0, 0x80, .ident),
    (0x80, 0x100, .table [
      some 0x2500, some 0x2502, some 0x250c, some 0x2510, some 0x2514, some 0x2518, some 0x251c,
      some 0x2524, some 0x252c, some 0x2534, some 0x253c, some 0x2580, some 0x2584, some 0x2588,
      some 0x258c, some 0x2590, some 0x2591, some 0x2592, some 0x2593, some 0x2320, some 0x25a0,
      some 0x2219, some 0x221a, some 0x2248, some 0x2264, some 0x2265, some 0xa0, some 0x2321,
      some 0xb0, some 0xb2, some 0xb7, some 0xf7, some 0x2550, some 0x2551, some 0x2552,
      some 0x451, some 0x2553, some 0x2554, some 0x2555, some 0x2556, some 0x2557, some 0x2558,
      some 0x2559, some 0x255a, some 0x255b, some 0x255c, some 0x255d, some 0x255e, some 0x255f,
      some 0x2560, some 0x2561, some 0x401, some 0x2562, some 0x2563, some 0x2564, some 0x2565,
      some 0x2566, some 0x2567, some 0x2568, some 0x2569, some 0x256a, some 0x256b, some 0x256c,
      some 0xa9, some 0x44e, some 0x430, some 0x431, some 0x446, some 0x434, some 0x435,
      some 0x444, some 0x433, some 0x445, some 0x438, some 0x439, some 0x43a, some 0x43b,
      some 0x43c, some 0x43d, some 0x43e, some 0x43f, some 0x44f, some 0x440, some 0x441,
      some 0x442, some 0x443, some 0x436, some 0x432, some 0x44c, some 0x44b, some 0x437,
      some 0x448, some 0x44d, some 0x449, some 0x447, some 0x44a, some 0x42e, some 0x410,
      some 0x411, some 0x426, some 0x414, some 0x415, some 0x424, some 0x413, some 0x425,
      some 0x418, some 0x419, some 0x41a, some 0x41b, some 0x41c, some 0x41d, some 0x41e,
      some 0x41f, some 0x42f, some 0x420, some 0x421, some 0x422, some 0x423, some 0x416,
      some 0x412, some 0x42c, some 0x42b, some 0x417, some 0x428, some 0x42d, some 0x429,
      some 0x427, some 0x42a])]
  enc := [
    (0x0, 0x80, .ident),
    (0x410, 0x458, .table [
      some [0xe1], some [0xe2], some [0xf7], some [0xe7], some [0xe4], some [0xe5], some [0xf6],
      some [0xfa], some [0xe9], some [0xea], some [0xeb], some [0xec], some [0xed], some [0xee],
      some [0xef], some [0xf0], some [0xf2], some [0xf3], some [0xf4], some [0xf5], some [0xe6],
      some [0xe8], some [0xe3], some [0xfe], some [0xfb], some [0xfd], some [0xff], some [0xf9],
      some [0xf8], some [0xfc], some [0xe0], some [0xf1], some [0xc1], some [0xc2], some [0xd7],
      some [0xc7], some [0xc4], some [0xc5], some [0xd6], some [0xda], some [0xc9], some [0xca],
      some [0xcb], some [0xcc], some [0xcd], some [0xce], some [0xcf], some [0xd0], some [0xd2],
      some [0xd3], some [0xd4], some [0xd5], some [0xc6], some [0xc8], some [0xc3], some [0xde],
      some [0xdb], some [0xdd], some [0xdf], some [0xd9], some [0xd8], some [0xdc], some [0xc0],
      some [0xd1], none, some [0xa3], none, none, none, none, none, none]),
    (0x2550, 0x2570, .table [
      some [0xa0], some [0xa1], some [0xa2], some [0xa4], some [0xa5], some [0xa6], some [0xa7],
      some [0xa8], some [0xa9], some [0xaa], some [0xab], some [0xac], some [0xad], some [0xae],
      some [0xaf], some [0xb0], some [0xb1], some [0xb2], some [0xb4], some [0xb5], some [0xb6],
      some [0xb7], some [0xb8], some [0xb9], some [0xba], some [0xbb], some [0xbc], some [0xbd],
      some [0xbe], none, none, none]),
    (0xa0, 0xa1, .const [0x9a]),
    (0xa9, 0xaa, .const [0xbf]),
    (0xb0, 0xb1, .const [0x9c]),
    (0xb2, 0xb3, .const [0x9d]),
    (0xb7, 0xb8, .const [0x9e]),
    (0xf7, 0xf8, .const [0x9f]),
    (0x401, 0x402, .const [0xb3]),
    (0x2219, 0x221a, .const [0x95]),
    (0x221a, 0x221b, .const [0x96]),
    (0x2248, 0x2249, .const [0x97]),
    (0x2264, 0x2265, .const [0x98]),
    (0x2265, 0x2266, .const [0x99]),
    (0x2320, 0x2321, .const [0x93]),
    (0x2321, 0x2322, .const [0x9b]),
    (0x2500, 0x2501, .const [0x80]),
    (0x2502, 0x2503, .const [0x81]),
    (0x250c, 0x250d, .const [0x82]),
    (0x2510, 0x2511, .const [0x83]),
    (0x2514, 0x2515, .const [0x84]),
    (0x2518, 0x2519, .const [0x85]),
    (0x251c, 0x251d, .const [0x86]),
    (0x2524, 0x2525, .const [0x87]),
    (0x252c, 0x252d, .const [0x88]),
    (0x2534, 0x2535, .const [0x89]),
    (0x253c, 0x253d, .const [0x8a]),
    (0x2580, 0x2581, .const [0x8b]),
    (0x2584, 0x2585, .const [0x8c]),
    (0x2588, 0x2589, .const [0x8d]),
    (0x258c, 0x258d, .const [0x8e]),
    (0x2590, 0x2591, .const [0x8f]),
    (0x2591, 0x2592, .const [0x90]),
    (0x2592, 0x2593, .const [0x91]),
    (0x2593, 0x2594, .const [0x92]),
    (0x25a0, 0x25a1, .const [0x94])]

/-- koi8_u.rs:58-72 (decoder), 208-286 (encoder), with their tables. -/
def koi8U : Page where
  name := "koi8_u"
  dec := [
    (0x0, 0x80, .ident),
    (0x80, 0x100, .table [
      some 0x2500, some 0x2502, some 0x250c, some 0x2510, some 0x2514, some 0x2518, some 0x251c,
      some 0x2524, some 0x252c, some 0x2534, some 0x253c, some 0x2580, some 0x2584, some 0x2588,
      some 0x258c, some 0x2590, some 0x2591, some 0x2592, some 0x2593, some 0x2320, some 0x25a0,
      some 0x2219, some 0x221a, some 0x2248, some 0x2264, some 0x2265, some 0xa0, some 0x2321,
      some 0xb0, some 0xb2, some 0xb7, some 0xf7, some 0x2550, some 0x2551, some 0x2552,
      some 0x451, some 0x454, some 0x2554, some 0x456, some 0x457, some 0x2557, some 0x2558,
      some 0x2559, some 0x255a, some 0x255b, some 0x491, some 0x255d, some 0x255e, some 0x255f,
      some 0x2560, some 0x2561, some 0x401, some 0x404, some 0x2563, some 0x406, some 0x407,
      some 0x2566, some 0x2567, some 0x2568, some 0x2569, some 0x256a, some 0x490, some 0x256c,
      some 0xa9, some 0x44e, some 0x430, some 0x431, some 0x446, some 0x434, some 0x435,
      some 0x444, some 0x433, some 0x445, some 0x438, some 0x439, some 0x43a, some 0x43b,
      some 0x43c, some 0x43d, some 0x43e, some 0x43f, some 0x44f, some 0x440, some 0x441,
      some 0x442, some 0x443, some 0x436, some 0x432, some 0x44c, some 0x44b, some 0x437,
      some 0x448, some 0x44d, some 0x449, some 0x447, some 0x44a, some 0x42e, some 0x410,
      some 0x411, some 0x426, some 0x414, some 0x415, some 0x424, some 0x413, some 0x425,
      some 0x418, some 0x419, some 0x41a, some 0x41b, some 0x41c, some 0x41d, some 0x41e,
      some 0x41f, some 0x42f, some 0x420, some 0x421, some 0x422, some 0x423, some 0x416,
      some 0x412, some 0x42c, some 0x42b, some 0x417, some 0x428, some 0x42d, some 0x429,
      some 0x427, some 0x42a])]
  enc := [
    (0x0, 0x80, .ident),
    (0x410, 0x458, .table [
      some [0xe1], some [0xe2], some [0xf7], some [0xe7], some [0xe4], some [0xe5], some [0xf6],
      some [0xfa], some [0xe9], some [0xea], some [0xeb], some [0xec], some [0xed], some [0xee],
      some [0xef], some [0xf0], some [0xf2], some [0xf3], some [0xf4], some [0xf5], some [0xe6],
      some [0xe8], some [0xe3], some [0xfe], some [0xfb], some [0xfd], some [0xff], some [0xf9],
      some [0xf8], some [0xfc], some [0xe0], some [0xf1], some [0xc1], some [0xc2], some [0xd7],
      some [0xc7], some [0xc4], some [0xc5], some [0xd6], some [0xda], some [0xc9], some [0xca],
      some [0xcb], some [0xcc], some [0xcd], some [0xce], some [0xcf], some [0xd0], some [0xd2],
      some [0xd3], some [0xd4], some [0xd5], some [0xc6], some [0xc8], some [0xc3], some [0xde],
      some [0xdb], some [0xdd], some [0xdf], some [0xd9], some [0xd8], some [0xdc], some [0xc0],
      some [0xd1], none, some [0xa3], none, none, some [0xa4], none, some [0xa6], some [0xa7]]),
    (0x2550, 0x2570, .table [
      some [0xa0], some [0xa1], some [0xa2], none, some [0xa5], none, none, some [0xa8],
      some [0xa9], some [0xaa], some [0xab], some [0xac], none, some [0xae], some [0xaf],
      some [0xb0], some [0xb1], some [0xb2], none, some [0xb5], none, none, some [0xb8],
      some [0xb9], some [0xba], some [0xbb], some [0xbc], none, some [0xbe], none, none, none]),
    (0xa0, 0xa1, .const [0x9a]),
    (0xa9, 0xaa, .const [0xbf]),
    (0xb0, 0xb1, .const [0x9c]),
    (0xb2, 0xb3, .const [0x9d]),
    (0xb7, 0xb8, .const [0x9e]),
    (0xf7, 0xf8, .const [0x9f]),
    (0x401, 0x402, .const [0xb3]),
    (0x404, 0x405, .const [0xb4]),
    (0x406, 0x407, .const [0xb6]),
    (0x407, 0x408, .const [0xb7]),
    (0x490, 0x491, .const [0xbd]),
    (0x491, 0x492, .const [0xad]),
    (0x2219, 0x221a, .const [0x95]),
    (0x221a, 0x221b, .const [0x96]),
    (0x2248, 0x2249, .const [0x97]),
    (0x2264, 0x2265, .const [0x98]),
    (0x2265, 0x2266, .const [0x99]),
    (0x2320, 0x2321, .const [0x93]),
    (0x2321, 0x2322, .const [0x9b]),
    (0x2500, 0x2501, .const [0x80]),
    (0x2502, 0x2503, .const [0x81]),
    (0x250c, 0x250d, .const [0x82]),
    (0x2510, 0x2511, .const [0x83]),
    (0x2514, 0x2515, .const [0x84]),
    (0x2518, 0x2519, .const [0x85]),
    (0x251c, 0x251d, .const [0x86]),
    (0x2524, 0x2525, .const [0x87]),
    (0x252c, 0x252d, .const [0x88]),
    (0x2534, 0x2535, .const [0x89]),
    (0x253c, 0x253d, .const [0x8a]),
    (0x2580, 0x2581, .const [0x8b]),
    (0x2584, 0x2585, .const [0x8c]),
    (0x2588, 0x2589, .const [0x8d]),
    (0x258c, 0x258d, .const [0x8e]),
    (0x2590, 0x2591, .const [0x8f]),
    (0x2591, 0x2592, .const [0x90]),
    (0x2592, 0x2593, .const [0x91]),
    (0x2593, 0x2594, .const [0x92]),
    (0x25a0, 0x25a1, .const [0x94])]

/-- mac_arabic.rs:58-72 (decoder), 419-478 (encoder), with their tables. -/
def macArabic : Page where
  name := "mac_arabic"
  dec := [
    (0x0, 0x80, .ident),
    (0x80, 0x100, .table [
      some 0xc4, some 0xa0, some 0xc7, some 0xc9, some 0xd1, some 0xd6, some 0xdc, some 0xe1,
      some 0xe0, some 0xe2, some 0xe4, some 0x6ba, some 0xab, some 0xe7, some 0xe9, some 0xe8,
      some 0xea, some 0xeb, some 0xed, some 0x2026, some 0xee, some 0xef, some 0xf1, some 0xf3,
      some 0xbb, some 0xf4, some 0xf6, some 0xf7, some 0xfa, some 0xf9, some 0xfb, some 0xfc,
      some 0x20, some 0x21, some 0x22, some 0x23, some 0x24, some 0x66a, some 0x26, some 0x27,
      some 0x28, some 0x29, some 0x2a, some 0x2b, some 0x60c, some 0x2d, some 0x2e, some 0x2f,
      some 0x660, some 0x661, some 0x662, some 0x663, some 0x664, some 0x665, some 0x666,
      some 0x667, some 0x668, some 0x669, some 0x3a, some 0x61b, some 0x3c, some 0x3d, some 0x3e,
      some 0x61f, some 0x274a, some 0x621, some 0x622, some 0x623, some 0x624, some 0x625,
      some 0x626, some 0x627, some 0x628, some 0x629, some 0x62a, some 0x62b, some 0x62c,
      some 0x62d, some 0x62e, some 0x62f, some 0x630, some 0x631, some 0x632, some 0x633,
      some 0x634, some 0x635, some 0x636, some 0x637, some 0x638, some 0x639, some 0x63a,
      some 0x5b, some 0x5c, some 0x5d, some 0x5e, some 0x5f, some 0x640, some 0x641, some 0x642,
      some 0x643, some 0x644, some 0x645, some 0x646, some 0x647, some 0x648, some 0x649,
      some 0x64a, some 0x64b, some 0x64c, some 0x64d, some 0x64e, some 0x64f, some 0x650,
      some 0x651, some 0x652, some 0x67e, some 0x679, some 0x686, some 0x6d5, some 0x6a4,
      some 0x6af, some 0x688, some 0x691, some 0x7b, some 0x7c, some 0x7d, some 0x698, some 0x6d2])]
  enc := [
    (0x0, 0x20, .ident),
    (0x40, 0x5b, .ident),
    (0x60, 0x7b, .ident),
    (0x7e, 0x80, .ident),
    (0x20, 0x40, .table [
      some [0xa0], some [0xa1], some [0xa2], some [0xa3], some [0xa4], some [0x25], some [0xa6],
      some [0xa7], some [0xa8], some [0xa9], some [0xaa], some [0xab], some [0x2c], some [0xad],
      some [0xae], some [0xaf], some [0x30], some [0x31], some [0x32], some [0x33], some [0x34],
      some [0x35], some [0x36], some [0x37], some [0x38], some [0x39], some [0xba], some [0x3b],
      some [0xbc], some [0xbd], some [0xbe], some [0x3f]]),
    (0xa0, 0x100, .table [
      some [0x81], none, none, none, none, none, none, none, none, none, none, some [0x8c], none,
      none, none, none, none, none, none, none, none, none, none, none, none, none, none,
      some [0x98], none, none, none, none, none, none, none, none, some [0x80], none, none,
      some [0x82], none, some [0x83], none, none, none, none, none, none, none, some [0x84],
      none, none, none, none, some [0x85], none, none, none, none, none, some [0x86], none, none,
      none, some [0x88], some [0x87], some [0x89], none, some [0x8a], none, none, some [0x8d],
      some [0x8f], some [0x8e], some [0x90], some [0x91], none, some [0x92], some [0x94],
      some [0x95], none, some [0x96], none, some [0x97], some [0x99], none, some [0x9a],
      some [0x9b], none, some [0x9d], some [0x9c], some [0x9e], some [0x9f], none, none, none]),
    (0x608, 0x6c0, .table [
      none, none, none, none, some [0xac], none, none, none, none, none, none, none, none, none,
      none, none, none, none, none, some [0xbb], none, none, none, some [0xbf], none,
      some [0xc1], some [0xc2], some [0xc3], some [0xc4], some [0xc5], some [0xc6], some [0xc7],
      some [0xc8], some [0xc9], some [0xca], some [0xcb], some [0xcc], some [0xcd], some [0xce],
      some [0xcf], some [0xd0], some [0xd1], some [0xd2], some [0xd3], some [0xd4], some [0xd5],
      some [0xd6], some [0xd7], some [0xd8], some [0xd9], some [0xda], none, none, none, none,
      none, some [0xe0], some [0xe1], some [0xe2], some [0xe3], some [0xe4], some [0xe5],
      some [0xe6], some [0xe7], some [0xe8], some [0xe9], some [0xea], some [0xeb], some [0xec],
      some [0xed], some [0xee], some [0xef], some [0xf0], some [0xf1], some [0xf2], none, none,
      none, none, none, none, none, none, none, none, none, none, none, some [0xb0], some [0xb1],
      some [0xb2], some [0xb3], some [0xb4], some [0xb5], some [0xb6], some [0xb7], some [0xb8],
      some [0xb9], some [0xa5], none, none, none, none, none, none, none, none, none, none, none,
      none, none, none, some [0xf4], none, none, none, none, some [0xf3], none, none, none, none,
      none, none, none, some [0xf5], none, some [0xf9], none, none, none, none, none, none, none,
      none, some [0xfa], none, none, none, none, none, none, some [0xfe], none, none, none, none,
      none, none, none, none, none, none, none, some [0xf7], none, none, none, none, none, none,
      none, none, none, none, some [0xf8], none, none, none, none, none, none, none, none, none,
      none, some [0x8b], none, none, none, none, none]),
    (0x5b, 0x5c, .const [0xdb]),
    (0x5c, 0x5d, .const [0xdc]),
    (0x5d, 0x5e, .const [0xdd]),
    (0x5e, 0x5f, .const [0xde]),
    (0x5f, 0x60, .const [0xdf]),
    (0x7b, 0x7c, .const [0xfb]),
    (0x7c, 0x7d, .const [0xfc]),
    (0x7d, 0x7e, .const [0xfd]),
    (0x6d2, 0x6d3, .const [0xff]),
    (0x6d5, 0x6d6, .const [0xf6]),
    (0x2026, 0x2027, .const [0x93]),
    (0x274a, 0x274b, .const [0xc0])]

/-- mac_celtic.rs:58-72 (decoder), 256-329 (encoder), with their tables. -/
def macCeltic : Page where
  name := "mac_celtic"
  dec := [
    (0x0, 0x80, .ident),
    (0x80, 0x100, .table [
      some 0xc4, some 0xc5, some 0xc7, some 0xc9, some 0xd1, some 0xd6, some 0xdc, some 0xe1,
      some 0xe0, some 0xe2, some 0xe4, some 0xe3, some 0xe5, some 0xe7, some 0xe9, some 0xe8,
      some 0xea, some 0xeb, some 0xed, some 0xec, some 0xee, some 0xef, some 0xf1, some 0xf3,
      some 0xf2, some 0xf4, some 0xf6, some 0xf5, some 0xfa, some 0xf9, some 0xfb, some 0xfc,
      some 0x2020, some 0xb0, some 0xa2, some 0xa3, some 0xa7, some 0x2022, some 0xb6, some 0xdf,
      some 0xae, some 0xa9, some 0x2122, some 0xb4, some 0xa8, some 0x2260, some 0xc6, some 0xd8,
      some 0x221e, some 0xb1, some 0x2264, some 0x2265, some 0xa5, some 0xb5, some 0x2202,
      some 0x2211, some 0x220f, some 0x3c0, some 0x222b, some 0xaa, some 0xba, some 0x3a9,
      some 0xe6, some 0xf8, some 0xbf, some 0xa1, some 0xac, some 0x221a, some 0x192,
      some 0x2248, some 0x2206, some 0xab, some 0xbb, some 0x2026, some 0xa0, some 0xc0,
      some 0xc3, some 0xd5, some 0x152, some 0x153, some 0x2013, some 0x2014, some 0x201c,
      some 0x201d, some 0x2018, some 0x2019, some 0xf7, some 0x25ca, some 0xff, some 0x178,
      some 0x2044, some 0x20ac, some 0x2039, some 0x203a, some 0x176, some 0x177, some 0x2021,
      some 0xb7, some 0x1ef2, some 0x1ef3, some 0x2030, some 0xc2, some 0xca, some 0xc1,
      some 0xcb, some 0xc8, some 0xcd, some 0xce, some 0xcf, some 0xcc, some 0xd3, some 0xd4,
      some 0x2663, some 0xd2, some 0xda, some 0xdb, some 0xd9, some 0x131, some 0xdd, some 0xfd,
      some 0x174, some 0x175, some 0x1e84, some 0x1e85, some 0x1e80, some 0x1e81, some 0x1e82,
      some 0x1e83])]
  enc := [
    (0x0, 0x80, .ident),
    (0xa0, 0x100, .table [
      some [0xca], some [0xc1], some [0xa2], some [0xa3], none, some [0xb4], none, some [0xa4],
      some [0xac], some [0xa9], some [0xbb], some [0xc7], some [0xc2], none, some [0xa8], none,
      some [0xa1], some [0xb1], none, none, some [0xab], some [0xb5], some [0xa6], some [0xe1],
      none, none, some [0xbc], some [0xc8], none, none, none, some [0xc0], some [0xcb],
      some [0xe7], some [0xe5], some [0xcc], some [0x80], some [0x81], some [0xae], some [0x82],
      some [0xe9], some [0x83], some [0xe6], some [0xe8], some [0xed], some [0xea], some [0xeb],
      some [0xec], none, some [0x84], some [0xf1], some [0xee], some [0xef], some [0xcd],
      some [0x85], none, some [0xaf], some [0xf4], some [0xf2], some [0xf3], some [0x86],
      some [0xf6], none, some [0xa7], some [0x88], some [0x87], some [0x89], some [0x8b],
      some [0x8a], some [0x8c], some [0xbe], some [0x8d], some [0x8f], some [0x8e], some [0x90],
      some [0x91], some [0x93], some [0x92], some [0x94], some [0x95], none, some [0x96],
      some [0x98], some [0x97], some [0x99], some [0x9b], some [0x9a], some [0xd6], some [0xbf],
      some [0x9d], some [0x9c], some [0x9e], some [0x9f], some [0xf7], none, some [0xd8]]),
    (0x2010, 0x2048, .table [
      none, none, none, some [0xd0], some [0xd1], none, none, none, some [0xd4], some [0xd5],
      none, none, some [0xd2], some [0xd3], none, none, some [0xa0], some [0xe0], some [0xa5],
      none, none, none, some [0xc9], none, none, none, none, none, none, none, none, none,
      some [0xe4], none, none, none, none, none, none, none, none, some [0xdc], some [0xdd],
      none, none, none, none, none, none, none, none, none, some [0xda], none, none, none]),
    (0x131, 0x132, .const [0xf5]),
    (0x152, 0x153, .const [0xce]),
    (0x153, 0x154, .const [0xcf]),
    (0x174, 0x175, .const [0xf8]),
    (0x175, 0x176, .const [0xf9]),
    (0x176, 0x177, .const [0xde]),
    (0x177, 0x178, .const [0xdf]),
    (0x178, 0x179, .const [0xd9]),
    (0x192, 0x193, .const [0xc4]),
    (0x3a9, 0x3aa, .const [0xbd]),
    (0x3c0, 0x3c1, .const [0xb9]),
    (0x1e80, 0x1e81, .const [0xfc]),
    (0x1e81, 0x1e82, .const [0xfd]),
    (0x1e82, 0x1e83, .const [0xfe]),
    (0x1e83, 0x1e84, .const [0xff]),
    (0x1e84, 0x1e85, .const [0xfa]),
    (0x1e85, 0x1e86, .const [0xfb]),
    (0x1ef2, 0x1ef3, .const [0xe2]),
    (0x1ef3, 0x1ef4, .const [0xe3]),
    (0x20ac, 0x20ad, .const [0xdb]),
    (0x2122, 0x2123, .const [0xaa]),
    (0x2202, 0x2203, .const [0xb6]),
    (0x2206, 0x2207, .const [0xc6]),
    (0x220f, 0x2210, .const [0xb8]),
    (0x2211, 0x2212, .const [0xb7]),
    (0x221a, 0x221b, .const [0xc3]),
    (0x221e, 0x221f, .const [0xb0]),
    (0x222b, 0x222c, .const [0xba]),
    (0x2248, 0x2249, .const [0xc5]),
    (0x2260, 0x2261, .const [0xad]),
    (0x2264, 0x2265, .const [0xb2]),
    (0x2265, 0x2266, .const [0xb3]),
    (0x25ca, 0x25cb, .const [0xd7]),
    (0x2663, 0x2664, .const [0xf0])]

/-- mac_central_eur_roman.rs:58-72 (decoder), 352-403 (encoder), with their tables. -/
def macCentralEurRoman : Page where
  name := "mac_central_eur_roman"
  dec := [
    (0x0, 0x80, .ident),
    (0x80, 0x100, .table [
      some 0xc4, some 0x100, some 0x101, some 0xc9, some 0x104, some 0xd6, some 0xdc, some 0xe1,
      some 0x105, some 0x10c, some 0xe4, some 0x10d, some 0x106, some 0x107, some 0xe9,
      some 0x179, some 0x17a, some 0x10e, some 0xed, some 0x10f, some 0x112, some 0x113,
      some 0x116, some 0xf3, some 0x117, some 0xf4, some 0xf6, some 0xf5, some 0xfa, some 0x11a,
      some 0x11b, some 0xfc, some 0x2020, some 0xb0, some 0x118, some 0xa3, some 0xa7,
      some 0x2022, some 0xb6, some 0xdf, some 0xae, some 0xa9, some 0x2122, some 0x119,
      some 0xa8, some 0x2260, some 0x123, some 0x12e, some 0x12f, some 0x12a, some 0x2264,
      some 0x2265, some 0x12b, some 0x136, some 0x2202, some 0x2211, some 0x142, some 0x13b,
      some 0x13c, some 0x13d, some 0x13e, some 0x139, some 0x13a, some 0x145, some 0x146,
      some 0x143, some 0xac, some 0x221a, some 0x144, some 0x147, some 0x2206, some 0xab,
      some 0xbb, some 0x2026, some 0xa0, some 0x148, some 0x150, some 0xd5, some 0x151,
      some 0x14c, some 0x2013, some 0x2014, some 0x201c, some 0x201d, some 0x2018, some 0x2019,
      some 0xf7, some 0x25ca, some 0x14d, some 0x154, some 0x155, some 0x158, some 0x2039,
      some 0x203a, some 0x159, some 0x156, some 0x157, some 0x160, some 0x201a, some 0x201e,
      some 0x161, some 0x15a, some 0x15b, some 0xc1, some 0x164, some 0x165, some 0xcd,
      some 0x17d, some 0x17e, some 0x16a, some 0xd3, some 0xd4, some 0x16b, some 0x16e,
      some 0xda, some 0x16f, some 0x170, some 0x171, some 0x172, some 0x173, some 0xdd,
      some 0xfd, some 0x137, some 0x17b, some 0x141, some 0x17c, some 0x122, some 0x2c7])]
  enc := [
    (0x0, 0x80, .ident),
    (0xa0, 0x180, .table [
      some [0xca], none, none, some [0xa3], none, none, none, some [0xa4], some [0xac],
      some [0xa9], none, some [0xc7], some [0xc2], none, some [0xa8], none, some [0xa1], none,
      none, none, none, none, some [0xa6], none, none, none, none, some [0xc8], none, none, none,
      none, none, some [0xe7], none, none, some [0x80], none, none, none, none, some [0x83],
      none, none, none, some [0xea], none, none, none, none, none, some [0xee], some [0xef],
      some [0xcd], some [0x85], none, none, none, some [0xf2], none, some [0x86], some [0xf8],
      none, some [0xa7], none, some [0x87], none, none, some [0x8a], none, none, none, none,
      some [0x8e], none, none, none, some [0x92], none, none, none, none, none, some [0x97],
      some [0x99], some [0x9b], some [0x9a], some [0xd6], none, none, some [0x9c], none,
      some [0x9f], some [0xf9], none, none, some [0x81], some [0x82], none, none, some [0x84],
      some [0x88], some [0x8c], some [0x8d], none, none, none, none, some [0x89], some [0x8b],
      some [0x91], some [0x93], none, none, some [0x94], some [0x95], none, none, some [0x96],
      some [0x98], some [0xa2], some [0xab], some [0x9d], some [0x9e], none, none, none, none,
      none, none, some [0xfe], some [0xae], none, none, none, none, none, none, some [0xb1],
      some [0xb4], none, none, some [0xaf], some [0xb0], none, none, none, none, none, none,
      some [0xb5], some [0xfa], none, some [0xbd], some [0xbe], some [0xb9], some [0xba],
      some [0xbb], some [0xbc], none, none, some [0xfc], some [0xb8], some [0xc1], some [0xc4],
      some [0xbf], some [0xc0], some [0xc5], some [0xcb], none, none, none, some [0xcf],
      some [0xd8], none, none, some [0xcc], some [0xce], none, none, some [0xd9], some [0xda],
      some [0xdf], some [0xe0], some [0xdb], some [0xde], some [0xe5], some [0xe6], none, none,
      none, none, some [0xe1], some [0xe4], none, none, some [0xe8], some [0xe9], none, none,
      none, none, some [0xed], some [0xf0], none, none, some [0xf1], some [0xf3], some [0xf4],
      some [0xf5], some [0xf6], some [0xf7], none, none, none, none, none, some [0x8f],
      some [0x90], some [0xfb], some [0xfd], some [0xeb], some [0xec], none]),
    (0x2010, 0x2028, .table [
      none, none, none, some [0xd0], some [0xd1], none, none, none, some [0xd4], some [0xd5],
      some [0xe2], none, some [0xd2], some [0xd3], some [0xe3], none, some [0xa0], none,
      some [0xa5], none, none, none, some [0xc9], none]),
    (0x2c7, 0x2c8, .const [0xff]),
    (0x2039, 0x203a, .const [0xdc]),
    (0x203a, 0x203b, .const [0xdd]),
    (0x2122, 0x2123, .const [0xaa]),
    (0x2202, 0x2203, .const [0xb6]),
    (0x2206, 0x2207, .const [0xc6]),
    (0x2211, 0x2212, .const [0xb7]),
    (0x221a, 0x221b, .const [0xc3]),
    (0x2260, 0x2261, .const [0xad]),
    (0x2264, 0x2265, .const [0xb2]),
    (0x2265, 0x2266, .const [0xb3]),
    (0x25ca, 0x25cb, .const [0xd7])]

/-- mac_croatian.rs:58-72 (decoder), 280-348 (encoder), with their tables. -/
def macCroatian : Page where
  name := "mac_croatian"
  dec := [
    (0x0, 0x80, .ident),
    (0x80, 0x100, .table [
      some 0xc4, some 0xc5, some 0xc7, some 0xc9, some 0xd1, some 0xd6, some 0xdc, some 0xe1,
      some 0xe0, some 0xe2, some 0xe4, some 0xe3, some 0xe5, some 0xe7, some 0xe9, some 0xe8,
      some 0xea, some 0xeb, some 0xed, some 0xec, some 0xee, some 0xef, some 0xf1, some 0xf3,
      some 0xf2, some 0xf4, some 0xf6, some 0xf5, some 0xfa, some 0xf9, some 0xfb, some 0xfc,
      some 0x2020, some 0xb0, some 0xa2, some 0xa3, some 0xa7, some 0x2022, some 0xb6, some 0xdf,
      some 0xae, some 0x160, some 0x2122, some 0xb4, some 0xa8, some 0x2260, some 0x17d,
      some 0xd8, some 0x221e, some 0xb1, some 0x2264, some 0x2265, some 0x2206, some 0xb5,
      some 0x2202, some 0x2211, some 0x220f, some 0x161, some 0x222b, some 0xaa, some 0xba,
      some 0x3a9, some 0x17e, some 0xf8, some 0xbf, some 0xa1, some 0xac, some 0x221a,
      some 0x192, some 0x2248, some 0x106, some 0xab, some 0x10c, some 0x2026, some 0xa0,
      some 0xc0, some 0xc3, some 0xd5, some 0x152, some 0x153, some 0x110, some 0x2014,
      some 0x201c, some 0x201d, some 0x2018, some 0x2019, some 0xf7, some 0x25ca, some 0xf8ff,
      some 0xa9, some 0x2044, some 0x20ac, some 0x2039, some 0x203a, some 0xc6, some 0xbb,
      some 0x2013, some 0xb7, some 0x201a, some 0x201e, some 0x2030, some 0xc2, some 0x107,
      some 0xc1, some 0x10d, some 0xc8, some 0xcd, some 0xce, some 0xcf, some 0xcc, some 0xd3,
      some 0xd4, some 0x111, some 0xd2, some 0xda, some 0xdb, some 0xd9, some 0x131, some 0x2c6,
      some 0x2dc, some 0xaf, some 0x3c0, some 0xcb, some 0x2da, some 0xb8, some 0xca, some 0xe6,
      some 0x2c7])]
  enc := [
    (0x0, 0x80, .ident),
    (0xa0, 0x118, .table [
      some [0xca], some [0xc1], some [0xa2], some [0xa3], none, none, none, some [0xa4],
      some [0xac], some [0xd9], some [0xbb], some [0xc7], some [0xc2], none, some [0xa8],
      some [0xf8], some [0xa1], some [0xb1], none, none, some [0xab], some [0xb5], some [0xa6],
      some [0xe1], some [0xfc], none, some [0xbc], some [0xdf], none, none, none, some [0xc0],
      some [0xcb], some [0xe7], some [0xe5], some [0xcc], some [0x80], some [0x81], some [0xde],
      some [0x82], some [0xe9], some [0x83], some [0xfd], some [0xfa], some [0xed], some [0xea],
      some [0xeb], some [0xec], none, some [0x84], some [0xf1], some [0xee], some [0xef],
      some [0xcd], some [0x85], none, some [0xaf], some [0xf4], some [0xf2], some [0xf3],
      some [0x86], none, none, some [0xa7], some [0x88], some [0x87], some [0x89], some [0x8b],
      some [0x8a], some [0x8c], some [0xfe], some [0x8d], some [0x8f], some [0x8e], some [0x90],
      some [0x91], some [0x93], some [0x92], some [0x94], some [0x95], none, some [0x96],
      some [0x98], some [0x97], some [0x99], some [0x9b], some [0x9a], some [0xd6], some [0xbf],
      some [0x9d], some [0x9c], some [0x9e], some [0x9f], none, none, none, none, none, none,
      none, none, none, some [0xc6], some [0xe6], none, none, none, none, some [0xc8],
      some [0xe8], none, none, some [0xd0], some [0xf0], none, none, none, none, none, none]),
    (0x2010, 0x2048, .table [
      none, none, none, some [0xe0], some [0xd1], none, none, none, some [0xd4], some [0xd5],
      some [0xe2], none, some [0xd2], some [0xd3], some [0xe3], none, some [0xa0], none,
      some [0xa5], none, none, none, some [0xc9], none, none, none, none, none, none, none, none,
      none, some [0xe4], none, none, none, none, none, none, none, none, some [0xdc],
      some [0xdd], none, none, none, none, none, none, none, none, none, some [0xda], none, none,
      none]),
    (0x131, 0x132, .const [0xf5]),
    (0x152, 0x153, .const [0xce]),
    (0x153, 0x154, .const [0xcf]),
    (0x160, 0x161, .const [0xa9]),
    (0x161, 0x162, .const [0xb9]),
    (0x17d, 0x17e, .const [0xae]),
    (0x17e, 0x17f, .const [0xbe]),
    (0x192, 0x193, .const [0xc4]),
    (0x2c6, 0x2c7, .const [0xf6]),
    (0x2c7, 0x2c8, .const [0xff]),
    (0x2da, 0x2db, .const [0xfb]),
    (0x2dc, 0x2dd, .const [0xf7]),
    (0x3a9, 0x3aa, .const [0xbd]),
    (0x3c0, 0x3c1, .const [0xf9]),
    (0x20ac, 0x20ad, .const [0xdb]),
    (0x2122, 0x2123, .const [0xaa]),
    (0x2202, 0x2203, .const [0xb6]),
    (0x2206, 0x2207, .const [0xb4]),
    (0x220f, 0x2210, .const [0xb8]),
    (0x2211, 0x2212, .const [0xb7]),
    (0x221a, 0x221b, .const [0xc3]),
    (0x221e, 0x221f, .const [0xb0]),
    (0x222b, 0x222c, .const [0xba]),
    (0x2248, 0x2249, .const [0xc5]),
    (0x2260, 0x2261, .const [0xad]),
    (0x2264, 0x2265, .const [0xb2]),
    (0x2265, 0x2266, .const [0xb3]),
    (0x25ca, 0x25cb, .const [0xd7]),
    (0xf8ff, 0xf900, .const [0xd8])]

/-- mac_cyrillic.rs:58-72 (decoder), 259-323 (encoder), with their tables. -/
def macCyrillic : Page where
  name := "mac_cyrillic"
  dec := [
    (0x0, 0x80, .ident),
    (0x80, 0x100, .table [
      some 0x410, some 0x411, some 0x412, some 0x413, some 0x414, some 0x415, some 0x416,
      some 0x417, some 0x418, some 0x419, some 0x41a, some 0x41b, some 0x41c, some 0x41d,
      some 0x41e, some 0x41f, some 0x420, some 0x421, some 0x422, some 0x423, some 0x424,
      some 0x425, some 0x426, some 0x427, some 0x428, some 0x429, some 0x42a, some 0x42b,
      some 0x42c, some 0x42d, some 0x42e, some 0x42f, some 0x2020, some 0xb0, some 0x490,
      some 0xa3, some 0xa7, some 0x2022, some 0xb6, some 0x406, some 0xae, some 0xa9,
      some 0x2122, some 0x402, some 0x452, some 0x2260, some 0x403, some 0x453, some 0x221e,
      some 0xb1, some 0x2264, some 0x2265, some 0x456, some 0xb5, some 0x491, some 0x408,
      some 0x404, some 0x454, some 0x407, some 0x457, some 0x409, some 0x459, some 0x40a,
      some 0x45a, some 0x458, some 0x405, some 0xac, some 0x221a, some 0x192, some 0x2248,
      some 0x2206, some 0xab, some 0xbb, some 0x2026, some 0xa0, some 0x40b, some 0x45b,
      some 0x40c, some 0x45c, some 0x455, some 0x2013, some 0x2014, some 0x201c, some 0x201d,
      some 0x2018, some 0x2019, some 0xf7, some 0x201e, some 0x40e, some 0x45e, some 0x40f,
      some 0x45f, some 0x2116, some 0x401, some 0x451, some 0x44f, some 0x430, some 0x431,
      some 0x432, some 0x433, some 0x434, some 0x435, some 0x436, some 0x437, some 0x438,
      some 0x439, some 0x43a, some 0x43b, some 0x43c, some 0x43d, some 0x43e, some 0x43f,
      some 0x440, some 0x441, some 0x442, some 0x443, some 0x444, some 0x445, some 0x446,
      some 0x447, some 0x448, some 0x449, some 0x44a, some 0x44b, some 0x44c, some 0x44d,
      some 0x44e, some 0x20ac])]
  enc := [
    (0x0, 0x80, .ident),
    (0xa0, 0xc0, .table [
      some [0xca], none, none, some [0xa3], none, none, none, some [0xa4], none, some [0xa9],
      none, some [0xc7], some [0xc2], none, some [0xa8], none, some [0xa1], some [0xb1], none,
      none, none, some [0xb5], some [0xa6], none, none, none, none, some [0xc8], none, none,
      none, none]),
    (0x400, 0x460, .table [
      none, some [0xdd], some [0xab], some [0xae], some [0xb8], some [0xc1], some [0xa7],
      some [0xba], some [0xb7], some [0xbc], some [0xbe], some [0xcb], some [0xcd], none,
      some [0xd8], some [0xda], some [0x80], some [0x81], some [0x82], some [0x83], some [0x84],
      some [0x85], some [0x86], some [0x87], some [0x88], some [0x89], some [0x8a], some [0x8b],
      some [0x8c], some [0x8d], some [0x8e], some [0x8f], some [0x90], some [0x91], some [0x92],
      some [0x93], some [0x94], some [0x95], some [0x96], some [0x97], some [0x98], some [0x99],
      some [0x9a], some [0x9b], some [0x9c], some [0x9d], some [0x9e], some [0x9f], some [0xe0],
      some [0xe1], some [0xe2], some [0xe3], some [0xe4], some [0xe5], some [0xe6], some [0xe7],
      some [0xe8], some [0xe9], some [0xea], some [0xeb], some [0xec], some [0xed], some [0xee],
      some [0xef], some [0xf0], some [0xf1], some [0xf2], some [0xf3], some [0xf4], some [0xf5],
      some [0xf6], some [0xf7], some [0xf8], some [0xf9], some [0xfa], some [0xfb], some [0xfc],
      some [0xfd], some [0xfe], some [0xdf], none, some [0xde], some [0xac], some [0xaf],
      some [0xb9], some [0xcf], some [0xb4], some [0xbb], some [0xc0], some [0xbd], some [0xbf],
      some [0xcc], some [0xce], none, some [0xd9], some [0xdb]]),
    (0x2010, 0x2028, .table [
      none, none, none, some [0xd0], some [0xd1], none, none, none, some [0xd4], some [0xd5],
      none, none, some [0xd2], some [0xd3], some [0xd7], none, some [0xa0], none, some [0xa5],
      none, none, none, some [0xc9], none]),
    (0xf7, 0xf8, .const [0xd6]),
    (0x192, 0x193, .const [0xc4]),
    (0x490, 0x491, .const [0xa2]),
    (0x491, 0x492, .const [0xb6]),
    (0x20ac, 0x20ad, .const [0xff]),
    (0x2116, 0x2117, .const [0xdc]),
    (0x2122, 0x2123, .const [0xaa]),
    (0x2206, 0x2207, .const [0xc6]),
    (0x221a, 0x221b, .const [0xc3]),
    (0x221e, 0x221f, .const [0xb0]),
    (0x2248, 0x2249, .const [0xc5]),
    (0x2260, 0x2261, .const [0xad]),
    (0x2264, 0x2265, .const [0xb2]),
    (0x2265, 0x2266, .const [0xb3])]

/-- mac_dingbats.rs:270-289 (decoder), 529-585 (encoder), with their tables. -/
def macDingbats : Page where
  name := "mac_dingbats"
  dec := [
    (0x0, 0x20, .ident),
    (0x20, 0x100, .table [
      some 0x20, some 0x2701, some 0x2702, some 0x2703, some 0x2704, some 0x260e, some 0x2706,
      some 0x2707, some 0x2708, some 0x2709, some 0x261b, some 0x261e, some 0x270c, some 0x270d,
      some 0x270e, some 0x270f, some 0x2710, some 0x2711, some 0x2712, some 0x2713, some 0x2714,
      some 0x2715, some 0x2716, some 0x2717, some 0x2718, some 0x2719, some 0x271a, some 0x271b,
      some 0x271c, some 0x271d, some 0x271e, some 0x271f, some 0x2720, some 0x2721, some 0x2722,
      some 0x2723, some 0x2724, some 0x2725, some 0x2726, some 0x2727, some 0x2605, some 0x2729,
      some 0x272a, some 0x272b, some 0x272c, some 0x272d, some 0x272e, some 0x272f, some 0x2730,
      some 0x2731, some 0x2732, some 0x2733, some 0x2734, some 0x2735, some 0x2736, some 0x2737,
      some 0x2738, some 0x2739, some 0x273a, some 0x273b, some 0x273c, some 0x273d, some 0x273e,
      some 0x273f, some 0x2740, some 0x2741, some 0x2742, some 0x2743, some 0x2744, some 0x2745,
      some 0x2746, some 0x2747, some 0x2748, some 0x2749, some 0x274a, some 0x274b, some 0x25cf,
      some 0x274d, some 0x25a0, some 0x274f, some 0x2750, some 0x2751, some 0x2752, some 0x25b2,
      some 0x25bc, some 0x25c6, some 0x2756, some 0x25d7, some 0x2758, some 0x2759, some 0x275a,
      some 0x275b, some 0x275c, some 0x275d, some 0x275e, some 0x7f, some 0x2768, some 0x2769,
      some 0x276a, some 0x276b, some 0x276c, some 0x276d, some 0x276e, some 0x276f, some 0x2770,
      some 0x2771, some 0x2772, some 0x2773, some 0x2774, some 0x2775, none, none, none, none,
      none, none, none, none, none, none, none, none, none, none, none, none, none, none, none,
      some 0x2761, some 0x2762, some 0x2763, some 0x2764, some 0x2765, some 0x2766, some 0x2767,
      some 0x2663, some 0x2666, some 0x2665, some 0x2660, some 0x2460, some 0x2461, some 0x2462,
      some 0x2463, some 0x2464, some 0x2465, some 0x2466, some 0x2467, some 0x2468, some 0x2469,
      some 0x2776, some 0x2777, some 0x2778, some 0x2779, some 0x277a, some 0x277b, some 0x277c,
      some 0x277d, some 0x277e, some 0x277f, some 0x2780, some 0x2781, some 0x2782, some 0x2783,
      some 0x2784, some 0x2785, some 0x2786, some 0x2787, some 0x2788, some 0x2789, some 0x278a,
      some 0x278b, some 0x278c, some 0x278d, some 0x278e, some 0x278f, some 0x2790, some 0x2791,
      some 0x2792, some 0x2793, some 0x2794, some 0x2192, some 0x2194, some 0x2195, some 0x2798,
      some 0x2799, some 0x279a, some 0x279b, some 0x279c, some 0x279d, some 0x279e, some 0x279f,
      some 0x27a0, some 0x27a1, some 0x27a2, some 0x27a3, some 0x27a4, some 0x27a5, some 0x27a6,
      some 0x27a7, some 0x27a8, some 0x27a9, some 0x27aa, some 0x27ab, some 0x27ac, some 0x27ad,
      some 0x27ae, some 0x27af, none, some 0x27b1, some 0x27b2, some 0x27b3, some 0x27b4,
      some 0x27b5, some 0x27b6, some 0x27b7, some 0x27b8, some 0x27b9, some 0x27ba, some 0x27bb,
      some 0x27bc, some 0x27bd, some 0x27be, none])]
  enc := [
    (0x0, 0x21, .ident),
    (0x7f, 0x80, .ident),
    (0x2460, 0x2470, .table [
      some [0xac], some [0xad], some [0xae], some [0xaf], some [0xb0], some [0xb1], some [0xb2],
      some [0xb3], some [0xb4], some [0xb5], none, none, none, none, none, none]),
    (0x2700, 0x27c0, .table [
      none, some [0x21], some [0x22], some [0x23], some [0x24], none, some [0x26], some [0x27],
      some [0x28], some [0x29], none, none, some [0x2c], some [0x2d], some [0x2e], some [0x2f],
      some [0x30], some [0x31], some [0x32], some [0x33], some [0x34], some [0x35], some [0x36],
      some [0x37], some [0x38], some [0x39], some [0x3a], some [0x3b], some [0x3c], some [0x3d],
      some [0x3e], some [0x3f], some [0x40], some [0x41], some [0x42], some [0x43], some [0x44],
      some [0x45], some [0x46], some [0x47], none, some [0x49], some [0x4a], some [0x4b],
      some [0x4c], some [0x4d], some [0x4e], some [0x4f], some [0x50], some [0x51], some [0x52],
      some [0x53], some [0x54], some [0x55], some [0x56], some [0x57], some [0x58], some [0x59],
      some [0x5a], some [0x5b], some [0x5c], some [0x5d], some [0x5e], some [0x5f], some [0x60],
      some [0x61], some [0x62], some [0x63], some [0x64], some [0x65], some [0x66], some [0x67],
      some [0x68], some [0x69], some [0x6a], some [0x6b], none, some [0x6d], none, some [0x6f],
      some [0x70], some [0x71], some [0x72], none, none, none, some [0x76], none, some [0x78],
      some [0x79], some [0x7a], some [0x7b], some [0x7c], some [0x7d], some [0x7e], none, none,
      some [0xa1], some [0xa2], some [0xa3], some [0xa4], some [0xa5], some [0xa6], some [0xa7],
      some [0x80], some [0x81], some [0x82], some [0x83], some [0x84], some [0x85], some [0x86],
      some [0x87], some [0x88], some [0x89], some [0x8a], some [0x8b], some [0x8c], some [0x8d],
      some [0xb6], some [0xb7], some [0xb8], some [0xb9], some [0xba], some [0xbb], some [0xbc],
      some [0xbd], some [0xbe], some [0xbf], some [0xc0], some [0xc1], some [0xc2], some [0xc3],
      some [0xc4], some [0xc5], some [0xc6], some [0xc7], some [0xc8], some [0xc9], some [0xca],
      some [0xcb], some [0xcc], some [0xcd], some [0xce], some [0xcf], some [0xd0], some [0xd1],
      some [0xd2], some [0xd3], some [0xd4], none, none, none, some [0xd8], some [0xd9],
      some [0xda], some [0xdb], some [0xdc], some [0xdd], some [0xde], some [0xdf], some [0xe0],
      some [0xe1], some [0xe2], some [0xe3], some [0xe4], some [0xe5], some [0xe6], some [0xe7],
      some [0xe8], some [0xe9], some [0xea], some [0xeb], some [0xec], some [0xed], some [0xee],
      some [0xef], none, some [0xf1], some [0xf2], some [0xf3], some [0xf4], some [0xf5],
      some [0xf6], some [0xf7], some [0xf8], some [0xf9], some [0xfa], some [0xfb], some [0xfc],
      some [0xfd], some [0xfe], none]),
    (0x2192, 0x2193, .const [0xd5]),
    (0x2194, 0x2195, .const [0xd6]),
    (0x2195, 0x2196, .const [0xd7]),
    (0x25a0, 0x25a1, .const [0x6e]),
    (0x25b2, 0x25b3, .const [0x73]),
    (0x25bc, 0x25bd, .const [0x74]),
    (0x25c6, 0x25c7, .const [0x75]),
    (0x25cf, 0x25d0, .const [0x6c]),
    (0x25d7, 0x25d8, .const [0x77]),
    (0x2605, 0x2606, .const [0x48]),
    (0x260e, 0x260f, .const [0x25]),
    (0x261b, 0x261c, .const [0x2a]),
    (0x261e, 0x261f, .const [0x2b]),
    (0x2660, 0x2661, .const [0xab]),
    (0x2663, 0x2664, .const [0xa8]),
    (0x2665, 0x2666, .const [0xaa]),
    (0x2666, 0x2667, .const [0xa9])]

/-- mac_farsi.rs:58-72 (decoder), 425-503 (encoder), with their tables. -/
def macFarsi : Page where
  name := "mac_farsi"
  dec := [
    (0x0, 0x80, .ident),
    (0x80, 0x100, .table [
      some 0xc4, some 0xa0, some 0xc7, some 0xc9, some 0xd1, some 0xd6, some 0xdc, some 0xe1,
      some 0xe0, some 0xe2, some 0xe4, some 0x6ba, some 0xab, some 0xe7, some 0xe9, some 0xe8,
      some 0xea, some 0xeb, some 0xed, some 0x2026, some 0xee, some 0xef, some 0xf1, some 0xf3,
      some 0xbb, some 0xf4, some 0xf6, some 0xf7, some 0xfa, some 0xf9, some 0xfb, some 0xfc,
      some 0x20, some 0x21, some 0x22, some 0x23, some 0x24, some 0x66a, some 0x26, some 0x27,
      some 0x28, some 0x29, some 0x2a, some 0x2b, some 0x60c, some 0x2d, some 0x2e, some 0x2f,
      some 0x6f0, some 0x6f1, some 0x6f2, some 0x6f3, some 0x6f4, some 0x6f5, some 0x6f6,
      some 0x6f7, some 0x6f8, some 0x6f9, some 0x3a, some 0x61b, some 0x3c, some 0x3d, some 0x3e,
      some 0x61f, some 0x274a, some 0x621, some 0x622, some 0x623, some 0x624, some 0x625,
      some 0x626, some 0x627, some 0x628, some 0x629, some 0x62a, some 0x62b, some 0x62c,
      some 0x62d, some 0x62e, some 0x62f, some 0x630, some 0x631, some 0x632, some 0x633,
      some 0x634, some 0x635, some 0x636, some 0x637, some 0x638, some 0x639, some 0x63a,
      some 0x5b, some 0x5c, some 0x5d, some 0x5e, some 0x5f, some 0x640, some 0x641, some 0x642,
      some 0x643, some 0x644, some 0x645, some 0x646, some 0x647, some 0x648, some 0x649,
      some 0x64a, some 0x64b, some 0x64c, some 0x64d, some 0x64e, some 0x64f, some 0x650,
      some 0x651, some 0x652, some 0x67e, some 0x679, some 0x686, some 0x6d5, some 0x6a4,
      some 0x6af, some 0x688, some 0x691, some 0x7b, some 0x7c, some 0x7d, some 0x698, some 0x6d2])]
  enc := [
    (0x0, 0x20, .ident),
    (0x40, 0x5b, .ident),
    (0x60, 0x7b, .ident),
    (0x7e, 0x80, .ident),
    (0x20, 0x40, .table [
      some [0xa0], some [0xa1], some [0xa2], some [0xa3], some [0xa4], some [0x25], some [0xa6],
      some [0xa7], some [0xa8], some [0xa9], some [0xaa], some [0xab], some [0x2c], some [0xad],
      some [0xae], some [0xaf], some [0x30], some [0x31], some [0x32], some [0x33], some [0x34],
      some [0x35], some [0x36], some [0x37], some [0x38], some [0x39], some [0xba], some [0x3b],
      some [0xbc], some [0xbd], some [0xbe], some [0x3f]]),
    (0xa0, 0x100, .table [
      some [0x81], none, none, none, none, none, none, none, none, none, none, some [0x8c], none,
      none, none, none, none, none, none, none, none, none, none, none, none, none, none,
      some [0x98], none, none, none, none, none, none, none, none, some [0x80], none, none,
      some [0x82], none, some [0x83], none, none, none, none, none, none, none, some [0x84],
      none, none, none, none, some [0x85], none, none, none, none, none, some [0x86], none, none,
      none, some [0x88], some [0x87], some [0x89], none, some [0x8a], none, none, some [0x8d],
      some [0x8f], some [0x8e], some [0x90], some [0x91], none, some [0x92], some [0x94],
      some [0x95], none, some [0x96], none, some [0x97], some [0x99], none, some [0x9a],
      some [0x9b], none, some [0x9d], some [0x9c], some [0x9e], some [0x9f], none, none, none]),
    (0x608, 0x658, .table [
      none, none, none, none, some [0xac], none, none, none, none, none, none, none, none, none,
      none, none, none, none, none, some [0xbb], none, none, none, some [0xbf], none,
      some [0xc1], some [0xc2], some [0xc3], some [0xc4], some [0xc5], some [0xc6], some [0xc7],
      some [0xc8], some [0xc9], some [0xca], some [0xcb], some [0xcc], some [0xcd], some [0xce],
      some [0xcf], some [0xd0], some [0xd1], some [0xd2], some [0xd3], some [0xd4], some [0xd5],
      some [0xd6], some [0xd7], some [0xd8], some [0xd9], some [0xda], none, none, none, none,
      none, some [0xe0], some [0xe1], some [0xe2], some [0xe3], some [0xe4], some [0xe5],
      some [0xe6], some [0xe7], some [0xe8], some [0xe9], some [0xea], some [0xeb], some [0xec],
      some [0xed], some [0xee], some [0xef], some [0xf0], some [0xf1], some [0xf2], none, none,
      none, none, none]),
    (0x668, 0x6c0, .table [
      none, none, some [0xa5], none, none, none, none, none, none, none, none, none, none, none,
      none, none, none, some [0xf4], none, none, none, none, some [0xf3], none, none, none, none,
      none, none, none, some [0xf5], none, some [0xf9], none, none, none, none, none, none, none,
      none, some [0xfa], none, none, none, none, none, none, some [0xfe], none, none, none, none,
      none, none, none, none, none, none, none, some [0xf7], none, none, none, none, none, none,
      none, none, none, none, some [0xf8], none, none, none, none, none, none, none, none, none,
      none, some [0x8b], none, none, none, none, none]),
    (0x6f0, 0x700, .table [
      some [0xb0], some [0xb1], some [0xb2], some [0xb3], some [0xb4], some [0xb5], some [0xb6],
      some [0xb7], some [0xb8], some [0xb9], none, none, none, none, none, none]),
    (0x5b, 0x5c, .const [0xdb]),
    (0x5c, 0x5d, .const [0xdc]),
    (0x5d, 0x5e, .const [0xdd]),
    (0x5e, 0x5f, .const [0xde]),
    (0x5f, 0x60, .const [0xdf]),
    (0x7b, 0x7c, .const [0xfb]),
    (0x7c, 0x7d, .const [0xfc]),
    (0x7d, 0x7e, .const [0xfd]),
    (0x6d2, 0x6d3, .const [0xff]),
    (0x6d5, 0x6d6, .const [0xf6]),
    (0x2026, 0x2027, .const [0x93]),
    (0x274a, 0x274b, .const [0xc0])]

/-- mac_gaelic.rs:58-72 (decoder), 240-324 (encoder), with their tables. -/
def macGaelic : Page where
  name := "mac_gaelic"
  dec := [
    (0x0, 0x80, .ident),
    (0x80, 0x100, .table [
      some 0xc4, some 0xc5, some 0xc7, some 0xc9, some 0xd1, some 0xd6, some 0xdc, some 0xe1,
      some 0xe0, some 0xe2, some 0xe4, some 0xe3, some 0xe5, some 0xe7, some 0xe9, some 0xe8,
      some 0xea, some 0xeb, some 0xed, some 0xec, some 0xee, some 0xef, some 0xf1, some 0xf3,
      some 0xf2, some 0xf4, some 0xf6, some 0xf5, some 0xfa, some 0xf9, some 0xfb, some 0xfc,
      some 0x2020, some 0xb0, some 0xa2, some 0xa3, some 0xa7, some 0x2022, some 0xb6, some 0xdf,
      some 0xae, some 0xa9, some 0x2122, some 0xb4, some 0xa8, some 0x2260, some 0xc6, some 0xd8,
      some 0x1e02, some 0xb1, some 0x2264, some 0x2265, some 0x1e03, some 0x10a, some 0x10b,
      some 0x1e0a, some 0x1e0b, some 0x1e1e, some 0x1e1f, some 0x120, some 0x121, some 0x1e40,
      some 0xe6, some 0xf8, some 0x1e41, some 0x1e56, some 0x1e57, some 0x27c, some 0x192,
      some 0x17f, some 0x1e60, some 0xab, some 0xbb, some 0x2026, some 0xa0, some 0xc0,
      some 0xc3, some 0xd5, some 0x152, some 0x153, some 0x2013, some 0x2014, some 0x201c,
      some 0x201d, some 0x2018, some 0x2019, some 0x1e61, some 0x1e9b, some 0xff, some 0x178,
      some 0x1e6a, some 0x20ac, some 0x2039, some 0x203a, some 0x176, some 0x177, some 0x1e6b,
      some 0xb7, some 0x1ef2, some 0x1ef3, some 0x204a, some 0xc2, some 0xca, some 0xc1,
      some 0xcb, some 0xc8, some 0xcd, some 0xce, some 0xcf, some 0xcc, some 0xd3, some 0xd4,
      some 0x2663, some 0xd2, some 0xda, some 0xdb, some 0xd9, some 0x131, some 0xdd, some 0xfd,
      some 0x174, some 0x175, some 0x1e84, some 0x1e85, some 0x1e80, some 0x1e81, some 0x1e82,
      some 0x1e83])]
  enc := [
    (0x0, 0x80, .ident),
    (0xa0, 0x110, .table [
      some [0xca], none, some [0xa2], some [0xa3], none, none, none, some [0xa4], some [0xac],
      some [0xa9], none, some [0xc7], none, none, some [0xa8], none, some [0xa1], some [0xb1],
      none, none, some [0xab], none, some [0xa6], some [0xe1], none, none, none, some [0xc8],
      none, none, none, none, some [0xcb], some [0xe7], some [0xe5], some [0xcc], some [0x80],
      some [0x81], some [0xae], some [0x82], some [0xe9], some [0x83], some [0xe6], some [0xe8],
      some [0xed], some [0xea], some [0xeb], some [0xec], none, some [0x84], some [0xf1],
      some [0xee], some [0xef], some [0xcd], some [0x85], none, some [0xaf], some [0xf4],
      some [0xf2], some [0xf3], some [0x86], some [0xf6], none, some [0xa7], some [0x88],
      some [0x87], some [0x89], some [0x8b], some [0x8a], some [0x8c], some [0xbe], some [0x8d],
      some [0x8f], some [0x8e], some [0x90], some [0x91], some [0x93], some [0x92], some [0x94],
      some [0x95], none, some [0x96], some [0x98], some [0x97], some [0x99], some [0x9b],
      some [0x9a], none, some [0xbf], some [0x9d], some [0x9c], some [0x9e], some [0x9f],
      some [0xf7], none, some [0xd8], none, none, none, none, none, none, none, none, none, none,
      some [0xb5], some [0xb6], none, none, none, none]),
    (0x2010, 0x2028, .table [
      none, none, none, some [0xd0], some [0xd1], none, none, none, some [0xd4], some [0xd5],
      none, none, some [0xd2], some [0xd3], none, none, some [0xa0], none, some [0xa5], none,
      none, none, some [0xc9], none]),
    (0x120, 0x121, .const [0xbb]),
    (0x121, 0x122, .const [0xbc]),
    (0x131, 0x132, .const [0xf5]),
    (0x152, 0x153, .const [0xce]),
    (0x153, 0x154, .const [0xcf]),
    (0x174, 0x175, .const [0xf8]),
    (0x175, 0x176, .const [0xf9]),
    (0x176, 0x177, .const [0xde]),
    (0x177, 0x178, .const [0xdf]),
    (0x178, 0x179, .const [0xd9]),
    (0x17f, 0x180, .const [0xc5]),
    (0x192, 0x193, .const [0xc4]),
    (0x27c, 0x27d, .const [0xc3]),
    (0x1e02, 0x1e03, .const [0xb0]),
    (0x1e03, 0x1e04, .const [0xb4]),
    (0x1e0a, 0x1e0b, .const [0xb7]),
    (0x1e0b, 0x1e0c, .const [0xb8]),
    (0x1e1e, 0x1e1f, .const [0xb9]),
    (0x1e1f, 0x1e20, .const [0xba]),
    (0x1e40, 0x1e41, .const [0xbd]),
    (0x1e41, 0x1e42, .const [0xc0]),
    (0x1e56, 0x1e57, .const [0xc1]),
    (0x1e57, 0x1e58, .const [0xc2]),
    (0x1e60, 0x1e61, .const [0xc6]),
    (0x1e61, 0x1e62, .const [0xd6]),
    (0x1e6a, 0x1e6b, .const [0xda]),
    (0x1e6b, 0x1e6c, .const [0xe0]),
    (0x1e80, 0x1e81, .const [0xfc]),
    (0x1e81, 0x1e82, .const [0xfd]),
    (0x1e82, 0x1e83, .const [0xfe]),
    (0x1e83, 0x1e84, .const [0xff]),
    (0x1e84, 0x1e85, .const [0xfa]),
    (0x1e85, 0x1e86, .const [0xfb]),
    (0x1e9b, 0x1e9c, .const [0xd7]),
    (0x1ef2, 0x1ef3, .const [0xe2]),
    (0x1ef3, 0x1ef4, .const [0xe3]),
    (0x2039, 0x203a, .const [0xdc]),
    (0x203a, 0x203b, .const [0xdd]),
    (0x204a, 0x204b, .const [0xe4]),
    (0x20ac, 0x20ad, .const [0xdb]),
    (0x2122, 0x2123, .const [0xaa]),
    (0x2260, 0x2261, .const [0xad]),
    (0x2264, 0x2265, .const [0xb2]),
    (0x2265, 0x2266, .const [0xb3]),
    (0x2663, 0x2664, .const [0xf0])]

/-- windows1250.rs:174-193 (decoder), 487-551 (encoder), with their tables. -/
def windows1250 : Page where
  name := "windows1250"
  dec := [
    (0x0, 0x80, .ident),
    (0x80, 0x100, .table [
      some 0x20ac, none, some 0x201a, none, some 0x201e, some 0x2026, some 0x2020, some 0x2021,
      none, some 0x2030, some 0x160, some 0x2039, some 0x15a, some 0x164, some 0x17d, some 0x179,
      none, some 0x2018, some 0x2019, some 0x201c, some 0x201d, some 0x2022, some 0x2013,
      some 0x2014, none, some 0x2122, some 0x161, some 0x203a, some 0x15b, some 0x165,
      some 0x17e, some 0x17a, some 0xa0, some 0x2c7, some 0x2d8, some 0x141, some 0xa4,
      some 0x104, some 0xa6, some 0xa7, some 0xa8, some 0xa9, some 0x15e, some 0xab, some 0xac,
      some 0xad, some 0xae, some 0x17b, some 0xb0, some 0xb1, some 0x2db, some 0x142, some 0xb4,
      some 0xb5, some 0xb6, some 0xb7, some 0xb8, some 0x105, some 0x15f, some 0xbb, some 0x13d,
      some 0x2dd, some 0x13e, some 0x17c, some 0x154, some 0xc1, some 0xc2, some 0x102,
      some 0xc4, some 0x139, some 0x106, some 0xc7, some 0x10c, some 0xc9, some 0x118, some 0xcb,
      some 0x11a, some 0xcd, some 0xce, some 0x10e, some 0x110, some 0x143, some 0x147,
      some 0xd3, some 0xd4, some 0x150, some 0xd6, some 0xd7, some 0x158, some 0x16e, some 0xda,
      some 0x170, some 0xdc, some 0xdd, some 0x162, some 0xdf, some 0x155, some 0xe1, some 0xe2,
      some 0x103, some 0xe4, some 0x13a, some 0x107, some 0xe7, some 0x10d, some 0xe9,
      some 0x119, some 0xeb, some 0x11b, some 0xed, some 0xee, some 0x10f, some 0x111,
      some 0x144, some 0x148, some 0xf3, some 0xf4, some 0x151, some 0xf6, some 0xf7, some 0x159,
      some 0x16f, some 0xfa, some 0x171, some 0xfc, some 0xfd, some 0x163, some 0x2d9])]
  enc := [
    (0x0, 0x80, .ident),
    (0xa0, 0x120, .table [
      some [0xa0], none, none, none, some [0xa4], none, some [0xa6], some [0xa7], some [0xa8],
      some [0xa9], none, some [0xab], some [0xac], some [0xad], some [0xae], none, some [0xb0],
      some [0xb1], none, none, some [0xb4], some [0xb5], some [0xb6], some [0xb7], some [0xb8],
      none, none, some [0xbb], none, none, none, none, none, some [0xc1], some [0xc2], none,
      some [0xc4], none, none, some [0xc7], none, some [0xc9], none, some [0xcb], none,
      some [0xcd], some [0xce], none, none, none, none, some [0xd3], some [0xd4], none,
      some [0xd6], some [0xd7], none, none, some [0xda], none, some [0xdc], some [0xdd], none,
      some [0xdf], none, some [0xe1], some [0xe2], none, some [0xe4], none, none, some [0xe7],
      none, some [0xe9], none, some [0xeb], none, some [0xed], some [0xee], none, none, none,
      none, some [0xf3], some [0xf4], none, some [0xf6], some [0xf7], none, none, some [0xfa],
      none, some [0xfc], some [0xfd], none, none, none, none, some [0xc3], some [0xe3],
      some [0xa5], some [0xb9], some [0xc6], some [0xe6], none, none, none, none, some [0xc8],
      some [0xe8], some [0xcf], some [0xef], some [0xd0], some [0xf0], none, none, none, none,
      none, none, some [0xca], some [0xea], some [0xcc], some [0xec], none, none, none, none]),
    (0x138, 0x180, .table [
      none, some [0xc5], some [0xe5], none, none, some [0xbc], some [0xbe], none, none,
      some [0xa3], some [0xb3], some [0xd1], some [0xf1], none, none, some [0xd2], some [0xf2],
      none, none, none, none, none, none, none, some [0xd5], some [0xf5], none, none,
      some [0xc0], some [0xe0], none, none, some [0xd8], some [0xf8], some [0x8c], some [0x9c],
      none, none, some [0xaa], some [0xba], some [0x8a], some [0x9a], some [0xde], some [0xfe],
      some [0x8d], some [0x9d], none, none, none, none, none, none, none, none, some [0xd9],
      some [0xf9], some [0xdb], some [0xfb], none, none, none, none, none, none, none,
      some [0x8f], some [0x9f], some [0xaf], some [0xbf], some [0x8e], some [0x9e], none]),
    (0x2d8, 0x2e0, .table [
      some [0xa2], some [0xff], none, some [0xb2], none, some [0xbd], none, none]),
    (0x2010, 0x2040, .table [
      none, none, none, some [0x96], some [0x97], none, none, none, some [0x91], some [0x92],
      some [0x82], none, some [0x93], some [0x94], some [0x84], none, some [0x86], some [0x87],
      some [0x95], none, none, none, some [0x85], none, none, none, none, none, none, none, none,
      none, some [0x89], none, none, none, none, none, none, none, none, some [0x8b],
      some [0x9b], none, none, none, none, none]),
    (0x2c7, 0x2c8, .const [0xa1]),
    (0x20ac, 0x20ad, .const [0x80]),
    (0x2122, 0x2123, .const [0x99])]

/-- windows1251.rs:174-193 (decoder), 380-438 (encoder), with their tables. -/
def windows1251 : Page where
  name := "windows1251"
  dec := [
    (0x0, 0x80, .ident),
    (0x80, 0x100, .table [
      some 0x402, some 0x403, some 0x201a, some 0x453, some 0x201e, some 0x2026, some 0x2020,
      some 0x2021, some 0x20ac, some 0x2030, some 0x409, some 0x2039, some 0x40a, some 0x40c,
      some 0x40b, some 0x40f, some 0x452, some 0x2018, some 0x2019, some 0x201c, some 0x201d,
      some 0x2022, some 0x2013, some 0x2014, none, some 0x2122, some 0x459, some 0x203a,
      some 0x45a, some 0x45c, some 0x45b, some 0x45f, some 0xa0, some 0x40e, some 0x45e,
      some 0x408, some 0xa4, some 0x490, some 0xa6, some 0xa7, some 0x401, some 0xa9, some 0x404,
      some 0xab, some 0xac, some 0xad, some 0xae, some 0x407, some 0xb0, some 0xb1, some 0x406,
      some 0x456, some 0x491, some 0xb5, some 0xb6, some 0xb7, some 0x451, some 0x2116,
      some 0x454, some 0xbb, some 0x458, some 0x405, some 0x455, some 0x457, some 0x410,
      some 0x411, some 0x412, some 0x413, some 0x414, some 0x415, some 0x416, some 0x417,
      some 0x418, some 0x419, some 0x41a, some 0x41b, some 0x41c, some 0x41d, some 0x41e,
      some 0x41f, some 0x420, some 0x421, some 0x422, some 0x423, some 0x424, some 0x425,
      some 0x426, some 0x427, some 0x428, some 0x429, some 0x42a, some 0x42b, some 0x42c,
      some 0x42d, some 0x42e, some 0x42f, some 0x430, some 0x431, some 0x432, some 0x433,
      some 0x434, some 0x435, some 0x436, some 0x437, some 0x438, some 0x439, some 0x43a,
      some 0x43b, some 0x43c, some 0x43d, some 0x43e, some 0x43f, some 0x440, some 0x441,
      some 0x442, some 0x443, some 0x444, some 0x445, some 0x446, some 0x447, some 0x448,
      some 0x449, some 0x44a, some 0x44b, some 0x44c, some 0x44d, some 0x44e, some 0x44f])]
  enc := [
    (0x0, 0x80, .ident),
    (0xa0, 0xc0, .table [
      some [0xa0], none, none, none, some [0xa4], none, some [0xa6], some [0xa7], none,
      some [0xa9], none, some [0xab], some [0xac], some [0xad], some [0xae], none, some [0xb0],
      some [0xb1], none, none, none, some [0xb5], some [0xb6], some [0xb7], none, none, none,
      some [0xbb], none, none, none, none]),
    (0x400, 0x460, .table [
      none, some [0xa8], some [0x80], some [0x81], some [0xaa], some [0xbd], some [0xb2],
      some [0xaf], some [0xa3], some [0x8a], some [0x8c], some [0x8e], some [0x8d], none,
      some [0xa1], some [0x8f], some [0xc0], some [0xc1], some [0xc2], some [0xc3], some [0xc4],
      some [0xc5], some [0xc6], some [0xc7], some [0xc8], some [0xc9], some [0xca], some [0xcb],
      some [0xcc], some [0xcd], some [0xce], some [0xcf], some [0xd0], some [0xd1], some [0xd2],
      some [0xd3], some [0xd4], some [0xd5], some [0xd6], some [0xd7], some [0xd8], some [0xd9],
      some [0xda], some [0xdb], some [0xdc], some [0xdd], some [0xde], some [0xdf], some [0xe0],
      some [0xe1], some [0xe2], some [0xe3], some [0xe4], some [0xe5], some [0xe6], some [0xe7],
      some [0xe8], some [0xe9], some [0xea], some [0xeb], some [0xec], some [0xed], some [0xee],
      some [0xef], some [0xf0], some [0xf1], some [0xf2], some [0xf3], some [0xf4], some [0xf5],
      some [0xf6], some [0xf7], some [0xf8], some [0xf9], some [0xfa], some [0xfb], some [0xfc],
      some [0xfd], some [0xfe], some [0xff], none, some [0xb8], some [0x90], some [0x83],
      some [0xba], some [0xbe], some [0xb3], some [0xbf], some [0xbc], some [0x9a], some [0x9c],
      some [0x9e], some [0x9d], none, some [0xa2], some [0x9f]]),
    (0x2010, 0x2028, .table [
      none, none, none, some [0x96], some [0x97], none, none, none, some [0x91], some [0x92],
      some [0x82], none, some [0x93], some [0x94], some [0x84], none, some [0x86], some [0x87],
      some [0x95], none, none, none, some [0x85], none]),
    (0x490, 0x491, .const [0xa5]),
    (0x491, 0x492, .const [0xb4]),
    (0x2030, 0x2031, .const [0x89]),
    (0x2039, 0x203a, .const [0x8b]),
    (0x203a, 0x203b, .const [0x9b]),
    (0x20ac, 0x20ad, .const [0x88]),
    (0x2116, 0x2117, .const [0xb9]),
    (0x2122, 0x2123, .const [0x99])]

/-- windows1252.rs:78-97 (decoder), 150-193 (encoder), with their tables. -/
def windows1252 : Page where
  name := "windows1252"
  dec := [
    (0x0, 0x80, .ident),
    (0x80, 0xa0, .table [
      some 0x20ac, none, some 0x201a, some 0x192, some 0x201e, some 0x2026, some 0x2020,
      some 0x2021, some 0x2c6, some 0x2030, some 0x160, some 0x2039, some 0x152, none,
      some 0x17d, none, none, some 0x2018, some 0x2019, some 0x201c, some 0x201d, some 0x2022,
      some 0x2013, some 0x2014, some 0x2dc, some 0x2122, some 0x161, some 0x203a, some 0x153,
      none, some 0x17e, some 0x178]),
    (0xa0, 0x100, .ident)]
  enc := [
    (0x0, 0x80, .ident),
    (0xa0, 0x100, .ident),
    (0x2010, 0x2028, .table [
      none, none, none, some [0x96], some [0x97], none, none, none, some [0x91], some [0x92],
      some [0x82], none, some [0x93], some [0x94], some [0x84], none, some [0x86], some [0x87],
      some [0x95], none, none, none, some [0x85], none]),
    (0x152, 0x153, .const [0x8c]),
    (0x153, 0x154, .const [0x9c]),
    (0x160, 0x161, .const [0x8a]),
    (0x161, 0x162, .const [0x9a]),
    (0x178, 0x179, .const [0x9f]),
    (0x17d, 0x17e, .const [0x8e]),
    (0x17e, 0x17f, .const [0x9e]),
    (0x192, 0x193, .const [0x83]),
    (0x2c6, 0x2c7, .const [0x88]),
    (0x2dc, 0x2dd, .const [0x98]),
    (0x2030, 0x2031, .const [0x89]),
    (0x2039, 0x203a, .const [0x8b]),
    (0x203a, 0x203b, .const [0x9b]),
    (0x20ac, 0x20ad, .const [0x80]),
    (0x2122, 0x2123, .const [0x99])]

/-- windows1253.rs:174-193 (decoder), 364-420 (encoder), with their tables. -/
def windows1253 : Page where
  name := "windows1253"
  dec := [
    (0x0, 0x80, .ident),
    (0x80, 0x100, .table [
      some 0x20ac, none, some 0x201a, some 0x192, some 0x201e, some 0x2026, some 0x2020,
      some 0x2021, none, some 0x2030, none, some 0x2039, none, none, none, none, none,
      some 0x2018, some 0x2019, some 0x201c, some 0x201d, some 0x2022, some 0x2013, some 0x2014,
      none, some 0x2122, none, some 0x203a, none, none, none, none, some 0xa0, some 0x385,
      some 0x386, some 0xa3, some 0xa4, some 0xa5, some 0xa6, some 0xa7, some 0xa8, some 0xa9,
      none, some 0xab, some 0xac, some 0xad, some 0xae, some 0x2015, some 0xb0, some 0xb1,
      some 0xb2, some 0xb3, some 0x384, some 0xb5, some 0xb6, some 0xb7, some 0x388, some 0x389,
      some 0x38a, some 0xbb, some 0x38c, some 0xbd, some 0x38e, some 0x38f, some 0x390,
      some 0x391, some 0x392, some 0x393, some 0x394, some 0x395, some 0x396, some 0x397,
      some 0x398, some 0x399, some 0x39a, some 0x39b, some 0x39c, some 0x39d, some 0x39e,
      some 0x39f, some 0x3a0, some 0x3a1, none, some 0x3a3, some 0x3a4, some 0x3a5, some 0x3a6,
      some 0x3a7, some 0x3a8, some 0x3a9, some 0x3aa, some 0x3ab, some 0x3ac, some 0x3ad,
      some 0x3ae, some 0x3af, some 0x3b0, some 0x3b1, some 0x3b2, some 0x3b3, some 0x3b4,
      some 0x3b5, some 0x3b6, some 0x3b7, some 0x3b8, some 0x3b9, some 0x3ba, some 0x3bb,
      some 0x3bc, some 0x3bd, some 0x3be, some 0x3bf, some 0x3c0, some 0x3c1, some 0x3c2,
      some 0x3c3, some 0x3c4, some 0x3c5, some 0x3c6, some 0x3c7, some 0x3c8, some 0x3c9,
      some 0x3ca, some 0x3cb, some 0x3cc, some 0x3cd, some 0x3ce, none])]
  enc := [
    (0x0, 0x80, .ident),
    (0xa0, 0xc0, .table [
      some [0xa0], none, none, some [0xa3], some [0xa4], some [0xa5], some [0xa6], some [0xa7],
      some [0xa8], some [0xa9], none, some [0xab], some [0xac], some [0xad], some [0xae], none,
      some [0xb0], some [0xb1], some [0xb2], some [0xb3], none, some [0xb5], some [0xb6],
      some [0xb7], none, none, none, some [0xbb], none, some [0xbd], none, none]),
    (0x380, 0x3d0, .table [
      none, none, none, none, some [0xb4], some [0xa1], some [0xa2], none, some [0xb8],
      some [0xb9], some [0xba], none, some [0xbc], none, some [0xbe], some [0xbf], some [0xc0],
      some [0xc1], some [0xc2], some [0xc3], some [0xc4], some [0xc5], some [0xc6], some [0xc7],
      some [0xc8], some [0xc9], some [0xca], some [0xcb], some [0xcc], some [0xcd], some [0xce],
      some [0xcf], some [0xd0], some [0xd1], none, some [0xd3], some [0xd4], some [0xd5],
      some [0xd6], some [0xd7], some [0xd8], some [0xd9], some [0xda], some [0xdb], some [0xdc],
      some [0xdd], some [0xde], some [0xdf], some [0xe0], some [0xe1], some [0xe2], some [0xe3],
      some [0xe4], some [0xe5], some [0xe6], some [0xe7], some [0xe8], some [0xe9], some [0xea],
      some [0xeb], some [0xec], some [0xed], some [0xee], some [0xef], some [0xf0], some [0xf1],
      some [0xf2], some [0xf3], some [0xf4], some [0xf5], some [0xf6], some [0xf7], some [0xf8],
      some [0xf9], some [0xfa], some [0xfb], some [0xfc], some [0xfd], some [0xfe], none]),
    (0x2010, 0x2028, .table [
      none, none, none, some [0x96], some [0x97], some [0xaf], none, none, some [0x91],
      some [0x92], some [0x82], none, some [0x93], some [0x94], some [0x84], none, some [0x86],
      some [0x87], some [0x95], none, none, none, some [0x85], none]),
    (0x192, 0x193, .const [0x83]),
    (0x2030, 0x2031, .const [0x89]),
    (0x2039, 0x203a, .const [0x8b]),
    (0x203a, 0x203b, .const [0x9b]),
    (0x20ac, 0x20ad, .const [0x80]),
    (0x2122, 0x2123, .const [0x99])]

/-- windows1254.rs:88-108 (decoder), 212-270 (encoder), with their tables. -/
def windows1254 : Page where
  name := "windows1254"
  dec := [
    (0x0, 0x80, .ident),
    (0xa0, 0xd0, .ident),
    (0xe0, 0xf0, .ident),
    (0x80, 0xa0, .table [
      some 0x20ac, none, some 0x201a, some 0x192, some 0x201e, some 0x2026, some 0x2020,
      some 0x2021, some 0x2c6, some 0x2030, some 0x160, some 0x2039, some 0x152, none, none,
      none, none, some 0x2018, some 0x2019, some 0x201c, some 0x201d, some 0x2022, some 0x2013,
      some 0x2014, some 0x2dc, some 0x2122, some 0x161, some 0x203a, some 0x153, none, none,
      some 0x178]),
    (0xd0, 0xe0, .table [
      some 0x11e, some 0xd1, some 0xd2, some 0xd3, some 0xd4, some 0xd5, some 0xd6, some 0xd7,
      some 0xd8, some 0xd9, some 0xda, some 0xdb, some 0xdc, some 0x130, some 0x15e, some 0xdf]),
    (0xf0, 0x100, .table [
      some 0x11f, some 0xf1, some 0xf2, some 0xf3, some 0xf4, some 0xf5, some 0xf6, some 0xf7,
      some 0xf8, some 0xf9, some 0xfa, some 0xfb, some 0xfc, some 0x131, some 0x15f, some 0xff])]
  enc := [
    (0x0, 0x80, .ident),
    (0xa0, 0xd0, .ident),
    (0xd0, 0x100, .table [
      none, some [0xd1], some [0xd2], some [0xd3], some [0xd4], some [0xd5], some [0xd6],
      some [0xd7], some [0xd8], some [0xd9], some [0xda], some [0xdb], some [0xdc], none, none,
      some [0xdf], some [0xe0], some [0xe1], some [0xe2], some [0xe3], some [0xe4], some [0xe5],
      some [0xe6], some [0xe7], some [0xe8], some [0xe9], some [0xea], some [0xeb], some [0xec],
      some [0xed], some [0xee], some [0xef], none, some [0xf1], some [0xf2], some [0xf3],
      some [0xf4], some [0xf5], some [0xf6], some [0xf7], some [0xf8], some [0xf9], some [0xfa],
      some [0xfb], some [0xfc], none, none, some [0xff]]),
    (0x2010, 0x2028, .table [
      none, none, none, some [0x96], some [0x97], none, none, none, some [0x91], some [0x92],
      some [0x82], none, some [0x93], some [0x94], some [0x84], none, some [0x86], some [0x87],
      some [0x95], none, none, none, some [0x85], none]),
    (0x11e, 0x11f, .const [0xd0]),
    (0x11f, 0x120, .const [0xf0]),
    (0x130, 0x131, .const [0xdd]),
    (0x131, 0x132, .const [0xfd]),
    (0x152, 0x153, .const [0x8c]),
    (0x153, 0x154, .const [0x9c]),
    (0x15e, 0x15f, .const [0xde]),
    (0x15f, 0x160, .const [0xfe]),
    (0x160, 0x161, .const [0x8a]),
    (0x161, 0x162, .const [0x9a]),
    (0x178, 0x179, .const [0x9f]),
    (0x192, 0x193, .const [0x83]),
    (0x2c6, 0x2c7, .const [0x88]),
    (0x2dc, 0x2dd, .const [0x98]),
    (0x2030, 0x2031, .const [0x89]),
    (0x2039, 0x203a, .const [0x8b]),
    (0x203a, 0x203b, .const [0x9b]),
    (0x20ac, 0x20ad, .const [0x80]),
    (0x2122, 0x2123, .const [0x99])]

/-- windows1255.rs:174-193 (decoder), 356-419 (encoder), with their tables. -/
def windows1255 : Page where
  name := "windows1255"
  dec := [
    (0x0, 0x80, .ident),
    (0x80, 0x100, .table [
      some 0x20ac, none, some 0x201a, some 0x192, some 0x201e, some 0x2026, some 0x2020,
      some 0x2021, some 0x2c6, some 0x2030, none, some 0x2039, none, none, none, none, none,
      some 0x2018, some 0x2019, some 0x201c, some 0x201d, some 0x2022, some 0x2013, some 0x2014,
      some 0x2dc, some 0x2122, none, some 0x203a, none, none, none, none, some 0xa0, some 0xa1,
      some 0xa2, some 0xa3, some 0x20aa, some 0xa5, some 0xa6, some 0xa7, some 0xa8, some 0xa9,
      some 0xd7, some 0xab, some 0xac, some 0xad, some 0xae, some 0xaf, some 0xb0, some 0xb1,
      some 0xb2, some 0xb3, some 0xb4, some 0xb5, some 0xb6, some 0xb7, some 0xb8, some 0xb9,
      some 0xf7, some 0xbb, some 0xbc, some 0xbd, some 0xbe, some 0xbf, some 0x5b0, some 0x5b1,
      some 0x5b2, some 0x5b3, some 0x5b4, some 0x5b5, some 0x5b6, some 0x5b7, some 0x5b8,
      some 0x5b9, none, some 0x5bb, some 0x5bc, some 0x5bd, some 0x5be, some 0x5bf, some 0x5c0,
      some 0x5c1, some 0x5c2, some 0x5c3, some 0x5f0, some 0x5f1, some 0x5f2, some 0x5f3,
      some 0x5f4, none, none, none, none, none, none, none, some 0x5d0, some 0x5d1, some 0x5d2,
      some 0x5d3, some 0x5d4, some 0x5d5, some 0x5d6, some 0x5d7, some 0x5d8, some 0x5d9,
      some 0x5da, some 0x5db, some 0x5dc, some 0x5dd, some 0x5de, some 0x5df, some 0x5e0,
      some 0x5e1, some 0x5e2, some 0x5e3, some 0x5e4, some 0x5e5, some 0x5e6, some 0x5e7,
      some 0x5e8, some 0x5e9, some 0x5ea, none, none, some 0x200e, some 0x200f, none])]
  enc := [
    (0x0, 0x80, .ident),
    (0xa0, 0xc0, .table [
      some [0xa0], some [0xa1], some [0xa2], some [0xa3], none, some [0xa5], some [0xa6],
      some [0xa7], some [0xa8], some [0xa9], none, some [0xab], some [0xac], some [0xad],
      some [0xae], some [0xaf], some [0xb0], some [0xb1], some [0xb2], some [0xb3], some [0xb4],
      some [0xb5], some [0xb6], some [0xb7], some [0xb8], some [0xb9], none, some [0xbb],
      some [0xbc], some [0xbd], some [0xbe], some [0xbf]]),
    (0x5b0, 0x5f8, .table [
      some [0xc0], some [0xc1], some [0xc2], some [0xc3], some [0xc4], some [0xc5], some [0xc6],
      some [0xc7], some [0xc8], some [0xc9], none, some [0xcb], some [0xcc], some [0xcd],
      some [0xce], some [0xcf], some [0xd0], some [0xd1], some [0xd2], some [0xd3], none, none,
      none, none, none, none, none, none, none, none, none, none, some [0xe0], some [0xe1],
      some [0xe2], some [0xe3], some [0xe4], some [0xe5], some [0xe6], some [0xe7], some [0xe8],
      some [0xe9], some [0xea], some [0xeb], some [0xec], some [0xed], some [0xee], some [0xef],
      some [0xf0], some [0xf1], some [0xf2], some [0xf3], some [0xf4], some [0xf5], some [0xf6],
      some [0xf7], some [0xf8], some [0xf9], some [0xfa], none, none, none, none, none,
      some [0xd4], some [0xd5], some [0xd6], some [0xd7], some [0xd8], none, none, none]),
    (0x2010, 0x2028, .table [
      none, none, none, some [0x96], some [0x97], none, none, none, some [0x91], some [0x92],
      some [0x82], none, some [0x93], some [0x94], some [0x84], none, some [0x86], some [0x87],
      some [0x95], none, none, none, some [0x85], none]),
    (0xd7, 0xd8, .const [0xaa]),
    (0xf7, 0xf8, .const [0xba]),
    (0x192, 0x193, .const [0x83]),
    (0x2c6, 0x2c7, .const [0x88]),
    (0x2dc, 0x2dd, .const [0x98]),
    (0x200e, 0x200f, .const [0xfd]),
    (0x200f, 0x2010, .const [0xfe]),
    (0x2030, 0x2031, .const [0x89]),
    (0x2039, 0x203a, .const [0x8b]),
    (0x203a, 0x203b, .const [0x9b]),
    (0x20aa, 0x20ab, .const [0xa4]),
    (0x20ac, 0x20ad, .const [0x80]),
    (0x2122, 0x2123, .const [0x99])]

/-- windows1256.rs:58-72 (decoder), 270-354 (encoder), with their tables. -/
def windows1256 : Page where
  name := "windows1256"
  dec := [
    (0x0, 0x80, .ident),
    (0x80, 0x100, .table [
      some 0x20ac, some 0x67e, some 0x201a, some 0x192, some 0x201e, some 0x2026, some 0x2020,
      some 0x2021, some 0x2c6, some 0x2030, some 0x679, some 0x2039, some 0x152, some 0x686,
      some 0x698, some 0x688, some 0x6af, some 0x2018, some 0x2019, some 0x201c, some 0x201d,
      some 0x2022, some 0x2013, some 0x2014, some 0x6a9, some 0x2122, some 0x691, some 0x203a,
      some 0x153, some 0x200c, some 0x200d, some 0x6ba, some 0xa0, some 0x60c, some 0xa2,
      some 0xa3, some 0xa4, some 0xa5, some 0xa6, some 0xa7, some 0xa8, some 0xa9, some 0x6be,
      some 0xab, some 0xac, some 0xad, some 0xae, some 0xaf, some 0xb0, some 0xb1, some 0xb2,
      some 0xb3, some 0xb4, some 0xb5, some 0xb6, some 0xb7, some 0xb8, some 0xb9, some 0x61b,
      some 0xbb, some 0xbc, some 0xbd, some 0xbe, some 0x61f, some 0x6c1, some 0x621, some 0x622,
      some 0x623, some 0x624, some 0x625, some 0x626, some 0x627, some 0x628, some 0x629,
      some 0x62a, some 0x62b, some 0x62c, some 0x62d, some 0x62e, some 0x62f, some 0x630,
      some 0x631, some 0x632, some 0x633, some 0x634, some 0x635, some 0x636, some 0xd7,
      some 0x637, some 0x638, some 0x639, some 0x63a, some 0x640, some 0x641, some 0x642,
      some 0x643, some 0xe0, some 0x644, some 0xe2, some 0x645, some 0x646, some 0x647,
      some 0x648, some 0xe7, some 0xe8, some 0xe9, some 0xea, some 0xeb, some 0x649, some 0x64a,
      some 0xee, some 0xef, some 0x64b, some 0x64c, some 0x64d, some 0x64e, some 0xf4,
      some 0x64f, some 0x650, some 0xf7, some 0x651, some 0xf9, some 0x652, some 0xfb, some 0xfc,
      some 0x200e, some 0x200f, some 0x6d2])]
  enc := [
    (0x0, 0x80, .ident),
    (0xa0, 0xc0, .table [
      some [0xa0], none, some [0xa2], some [0xa3], some [0xa4], some [0xa5], some [0xa6],
      some [0xa7], some [0xa8], some [0xa9], none, some [0xab], some [0xac], some [0xad],
      some [0xae], some [0xaf], some [0xb0], some [0xb1], some [0xb2], some [0xb3], some [0xb4],
      some [0xb5], some [0xb6], some [0xb7], some [0xb8], some [0xb9], none, some [0xbb],
      some [0xbc], some [0xbd], some [0xbe], none]),
    (0xe0, 0x100, .table [
      some [0xe0], none, some [0xe2], none, none, none, none, some [0xe7], some [0xe8],
      some [0xe9], some [0xea], some [0xeb], none, none, some [0xee], some [0xef], none, none,
      none, none, some [0xf4], none, none, some [0xf7], none, some [0xf9], none, some [0xfb],
      some [0xfc], none, none, none]),
    (0x618, 0x658, .table [
      none, none, none, some [0xba], none, none, none, some [0xbf], none, some [0xc1],
      some [0xc2], some [0xc3], some [0xc4], some [0xc5], some [0xc6], some [0xc7], some [0xc8],
      some [0xc9], some [0xca], some [0xcb], some [0xcc], some [0xcd], some [0xce], some [0xcf],
      some [0xd0], some [0xd1], some [0xd2], some [0xd3], some [0xd4], some [0xd5], some [0xd6],
      some [0xd8], some [0xd9], some [0xda], some [0xdb], none, none, none, none, none,
      some [0xdc], some [0xdd], some [0xde], some [0xdf], some [0xe1], some [0xe3], some [0xe4],
      some [0xe5], some [0xe6], some [0xec], some [0xed], some [0xf0], some [0xf1], some [0xf2],
      some [0xf3], some [0xf5], some [0xf6], some [0xf8], some [0xfa], none, none, none, none,
      none]),
    (0x2008, 0x2028, .table [
      none, none, none, none, some [0x9d], some [0x9e], some [0xfd], some [0xfe], none, none,
      none, some [0x96], some [0x97], none, none, none, some [0x91], some [0x92], some [0x82],
      none, some [0x93], some [0x94], some [0x84], none, some [0x86], some [0x87], some [0x95],
      none, none, none, some [0x85], none]),
    (0xd7, 0xd8, .const [0xd7]),
    (0x152, 0x153, .const [0x8c]),
    (0x153, 0x154, .const [0x9c]),
    (0x192, 0x193, .const [0x83]),
    (0x2c6, 0x2c7, .const [0x88]),
    (0x60c, 0x60d, .const [0xa1]),
    (0x679, 0x67a, .const [0x8a]),
    (0x67e, 0x67f, .const [0x81]),
    (0x686, 0x687, .const [0x8d]),
    (0x688, 0x689, .const [0x8f]),
    (0x691, 0x692, .const [0x9a]),
    (0x698, 0x699, .const [0x8e]),
    (0x6a9, 0x6aa, .const [0x98]),
    (0x6af, 0x6b0, .const [0x90]),
    (0x6ba, 0x6bb, .const [0x9f]),
    (0x6be, 0x6bf, .const [0xaa]),
    (0x6c1, 0x6c2, .const [0xc0]),
    (0x6d2, 0x6d3, .const [0xff]),
    (0x2030, 0x2031, .const [0x89]),
    (0x2039, 0x203a, .const [0x8b]),
    (0x203a, 0x203b, .const [0x9b]),
    (0x20ac, 0x20ad, .const [0x80]),
    (0x2122, 0x2123, .const [0x99])]

/-- windows1257.rs:174-193 (decoder), 473-520 (encoder), with their tables. -/
def windows1257 : Page where
  name := "windows1257"
  dec := [
    (0x0, 0x80, .ident),
    (0x80, 0x100, .table [
      some 0x20ac, none, some 0x201a, none, some 0x201e, some 0x2026, some 0x2020, some 0x2021,
      none, some 0x2030, none, some 0x2039, none, some 0xa8, some 0x2c7, some 0xb8, none,
      some 0x2018, some 0x2019, some 0x201c, some 0x201d, some 0x2022, some 0x2013, some 0x2014,
      none, some 0x2122, none, some 0x203a, none, some 0xaf, some 0x2db, none, some 0xa0, none,
      some 0xa2, some 0xa3, some 0xa4, none, some 0xa6, some 0xa7, some 0xd8, some 0xa9,
      some 0x156, some 0xab, some 0xac, some 0xad, some 0xae, some 0xc6, some 0xb0, some 0xb1,
      some 0xb2, some 0xb3, some 0xb4, some 0xb5, some 0xb6, some 0xb7, some 0xf8, some 0xb9,
      some 0x157, some 0xbb, some 0xbc, some 0xbd, some 0xbe, some 0xe6, some 0x104, some 0x12e,
      some 0x100, some 0x106, some 0xc4, some 0xc5, some 0x118, some 0x112, some 0x10c,
      some 0xc9, some 0x179, some 0x116, some 0x122, some 0x136, some 0x12a, some 0x13b,
      some 0x160, some 0x143, some 0x145, some 0xd3, some 0x14c, some 0xd5, some 0xd6, some 0xd7,
      some 0x172, some 0x141, some 0x15a, some 0x16a, some 0xdc, some 0x17b, some 0x17d,
      some 0xdf, some 0x105, some 0x12f, some 0x101, some 0x107, some 0xe4, some 0xe5,
      some 0x119, some 0x113, some 0x10d, some 0xe9, some 0x17a, some 0x117, some 0x123,
      some 0x137, some 0x12b, some 0x13c, some 0x161, some 0x144, some 0x146, some 0xf3,
      some 0x14d, some 0xf5, some 0xf6, some 0xf7, some 0x173, some 0x142, some 0x15b,
      some 0x16b, some 0xfc, some 0x17c, some 0x17e, some 0x2d9])]
  enc := [
    (0x0, 0x80, .ident),
    (0xa0, 0x180, .table [
      some [0xa0], none, some [0xa2], some [0xa3], some [0xa4], none, some [0xa6], some [0xa7],
      some [0x8d], some [0xa9], none, some [0xab], some [0xac], some [0xad], some [0xae],
      some [0x9d], some [0xb0], some [0xb1], some [0xb2], some [0xb3], some [0xb4], some [0xb5],
      some [0xb6], some [0xb7], some [0x8f], some [0xb9], none, some [0xbb], some [0xbc],
      some [0xbd], some [0xbe], none, none, none, none, none, some [0xc4], some [0xc5],
      some [0xaf], none, none, some [0xc9], none, none, none, none, none, none, none, none, none,
      some [0xd3], none, some [0xd5], some [0xd6], some [0xd7], some [0xa8], none, none, none,
      some [0xdc], none, none, some [0xdf], none, none, none, none, some [0xe4], some [0xe5],
      some [0xbf], none, none, some [0xe9], none, none, none, none, none, none, none, none, none,
      some [0xf3], none, some [0xf5], some [0xf6], some [0xf7], some [0xb8], none, none, none,
      some [0xfc], none, none, none, some [0xc2], some [0xe2], none, none, some [0xc0],
      some [0xe0], some [0xc3], some [0xe3], none, none, none, none, some [0xc8], some [0xe8],
      none, none, none, none, some [0xc7], some [0xe7], none, none, some [0xcb], some [0xeb],
      some [0xc6], some [0xe6], none, none, none, none, none, none, none, none, some [0xcc],
      some [0xec], none, none, none, none, none, none, some [0xce], some [0xee], none, none,
      some [0xc1], some [0xe1], none, none, none, none, none, none, some [0xcd], some [0xed],
      none, none, none, some [0xcf], some [0xef], none, none, none, none, some [0xd9],
      some [0xf9], some [0xd1], some [0xf1], some [0xd2], some [0xf2], none, none, none, none,
      none, some [0xd4], some [0xf4], none, none, none, none, none, none, none, none,
      some [0xaa], some [0xba], none, none, some [0xda], some [0xfa], none, none, none, none,
      some [0xd0], some [0xf0], none, none, none, none, none, none, none, none, some [0xdb],
      some [0xfb], none, none, none, none, none, none, some [0xd8], some [0xf8], none, none,
      none, none, none, some [0xca], some [0xea], some [0xdd], some [0xfd], some [0xde],
      some [0xfe], none]),
    (0x2010, 0x2028, .table [
      none, none, none, some [0x96], some [0x97], none, none, none, some [0x91], some [0x92],
      some [0x82], none, some [0x93], some [0x94], some [0x84], none, some [0x86], some [0x87],
      some [0x95], none, none, none, some [0x85], none]),
    (0x2c7, 0x2c8, .const [0x8e]),
    (0x2d9, 0x2da, .const [0xff]),
    (0x2db, 0x2dc, .const [0x9e]),
    (0x2030, 0x2031, .const [0x89]),
    (0x2039, 0x203a, .const [0x8b]),
    (0x203a, 0x203b, .const [0x9b]),
    (0x20ac, 0x20ad, .const [0x80]),
    (0x2122, 0x2123, .const [0x99])]

/-- windows1258.rs:174-193 (decoder), 321-383 (encoder), with their tables. -/
def windows1258 : Page where
  name := "windows1258"
  dec := [
    (0x0, 0x80, .ident),
    (0x80, 0x100, .table [
      some 0x20ac, none, some 0x201a, some 0x192, some 0x201e, some 0x2026, some 0x2020,
      some 0x2021, some 0x2c6, some 0x2030, none, some 0x2039, some 0x152, none, none, none,
      none, some 0x2018, some 0x2019, some 0x201c, some 0x201d, some 0x2022, some 0x2013,
      some 0x2014, some 0x2dc, some 0x2122, none, some 0x203a, some 0x153, none, none,
      some 0x178, some 0xa0, some 0xa1, some 0xa2, some 0xa3, some 0xa4, some 0xa5, some 0xa6,
      some 0xa7, some 0xa8, some 0xa9, some 0xaa, some 0xab, some 0xac, some 0xad, some 0xae,
      some 0xaf, some 0xb0, some 0xb1, some 0xb2, some 0xb3, some 0xb4, some 0xb5, some 0xb6,
      some 0xb7, some 0xb8, some 0xb9, some 0xba, some 0xbb, some 0xbc, some 0xbd, some 0xbe,
      some 0xbf, some 0xc0, some 0xc1, some 0xc2, some 0x102, some 0xc4, some 0xc5, some 0xc6,
      some 0xc7, some 0xc8, some 0xc9, some 0xca, some 0xcb, some 0x300, some 0xcd, some 0xce,
      some 0xcf, some 0x110, some 0xd1, some 0x309, some 0xd3, some 0xd4, some 0x1a0, some 0xd6,
      some 0xd7, some 0xd8, some 0xd9, some 0xda, some 0xdb, some 0xdc, some 0x1af, some 0x303,
      some 0xdf, some 0xe0, some 0xe1, some 0xe2, some 0x103, some 0xe4, some 0xe5, some 0xe6,
      some 0xe7, some 0xe8, some 0xe9, some 0xea, some 0xeb, some 0x301, some 0xed, some 0xee,
      some 0xef, some 0x111, some 0xf1, some 0x323, some 0xf3, some 0xf4, some 0x1a1, some 0xf6,
      some 0xf7, some 0xf8, some 0xf9, some 0xfa, some 0xfb, some 0xfc, some 0x1b0, some 0x20ab,
      some 0xff])]
  enc := [
    (0x0, 0x80, .ident),
    (0xa0, 0xc0, .ident),
    (0xc0, 0x108, .table [
      some [0xc0], some [0xc1], some [0xc2], none, some [0xc4], some [0xc5], some [0xc6],
      some [0xc7], some [0xc8], some [0xc9], some [0xca], some [0xcb], none, some [0xcd],
      some [0xce], some [0xcf], none, some [0xd1], none, some [0xd3], some [0xd4], none,
      some [0xd6], some [0xd7], some [0xd8], some [0xd9], some [0xda], some [0xdb], some [0xdc],
      none, none, some [0xdf], some [0xe0], some [0xe1], some [0xe2], none, some [0xe4],
      some [0xe5], some [0xe6], some [0xe7], some [0xe8], some [0xe9], some [0xea], some [0xeb],
      none, some [0xed], some [0xee], some [0xef], none, some [0xf1], none, some [0xf3],
      some [0xf4], none, some [0xf6], some [0xf7], some [0xf8], some [0xf9], some [0xfa],
      some [0xfb], some [0xfc], none, none, some [0xff], none, none, some [0xc3], some [0xe3],
      none, none, none, none]),
    (0x2010, 0x2028, .table [
      none, none, none, some [0x96], some [0x97], none, none, none, some [0x91], some [0x92],
      some [0x82], none, some [0x93], some [0x94], some [0x84], none, some [0x86], some [0x87],
      some [0x95], none, none, none, some [0x85], none]),
    (0x110, 0x111, .const [0xd0]),
    (0x111, 0x112, .const [0xf0]),
    (0x152, 0x153, .const [0x8c]),
    (0x153, 0x154, .const [0x9c]),
    (0x178, 0x179, .const [0x9f]),
    (0x192, 0x193, .const [0x83]),
    (0x1a0, 0x1a1, .const [0xd5]),
    (0x1a1, 0x1a2, .const [0xf5]),
    (0x1af, 0x1b0, .const [0xdd]),
    (0x1b0, 0x1b1, .const [0xfd]),
    (0x2c6, 0x2c7, .const [0x88]),
    (0x2dc, 0x2dd, .const [0x98]),
    (0x300, 0x301, .const [0xcc]),
    (0x301, 0x302, .const [0xec]),
    (0x303, 0x304, .const [0xde]),
    (0x309, 0x30a, .const [0xd2]),
    (0x323, 0x324, .const [0xf2]),
    (0x2030, 0x2031, .const [0x89]),
    (0x2039, 0x203a, .const [0x8b]),
    (0x203a, 0x203b, .const [0x9b]),
    (0x20ab, 0x20ac, .const [0xfe]),
    (0x20ac, 0x20ad, .const [0x80]),
    (0x2122, 0x2123, .const [0x99])]

/-- windows874.rs:174-193 (decoder), 329-373 (encoder), with their tables. -/
def windows874 : Page where
  name := "windows874"
  dec := [
    (0x0, 0x80, .ident),
    (0x80, 0x100, .table [
      some 0x20ac, none, none, none, none, some 0x2026, none, none, none, none, none, none, none,
      none, none, none, none, some 0x2018, some 0x2019, some 0x201c, some 0x201d, some 0x2022,
      some 0x2013, some 0x2014, none, none, none, none, none, none, none, none, some 0xa0,
      some 0xe01, some 0xe02, some 0xe03, some 0xe04, some 0xe05, some 0xe06, some 0xe07,
      some 0xe08, some 0xe09, some 0xe0a, some 0xe0b, some 0xe0c, some 0xe0d, some 0xe0e,
      some 0xe0f, some 0xe10, some 0xe11, some 0xe12, some 0xe13, some 0xe14, some 0xe15,
      some 0xe16, some 0xe17, some 0xe18, some 0xe19, some 0xe1a, some 0xe1b, some 0xe1c,
      some 0xe1d, some 0xe1e, some 0xe1f, some 0xe20, some 0xe21, some 0xe22, some 0xe23,
      some 0xe24, some 0xe25, some 0xe26, some 0xe27, some 0xe28, some 0xe29, some 0xe2a,
      some 0xe2b, some 0xe2c, some 0xe2d, some 0xe2e, some 0xe2f, some 0xe30, some 0xe31,
      some 0xe32, some 0xe33, some 0xe34, some 0xe35, some 0xe36, some 0xe37, some 0xe38,
      some 0xe39, some 0xe3a, none, none, none, none, some 0xe3f, some 0xe40, some 0xe41,
      some 0xe42, some 0xe43, some 0xe44, some 0xe45, some 0xe46, some 0xe47, some 0xe48,
      some 0xe49, some 0xe4a, some 0xe4b, some 0xe4c, some 0xe4d, some 0xe4e, some 0xe4f,
      some 0xe50, some 0xe51, some 0xe52, some 0xe53, some 0xe54, some 0xe55, some 0xe56,
      some 0xe57, some 0xe58, some 0xe59, some 0xe5a, some 0xe5b, none, none, none, none])]
  enc := [
    (0x0, 0x80, .ident),
    (0xa0, 0xa1, .ident),
    (0xe00, 0xe60, .table [
      none, some [0xa1], some [0xa2], some [0xa3], some [0xa4], some [0xa5], some [0xa6],
      some [0xa7], some [0xa8], some [0xa9], some [0xaa], some [0xab], some [0xac], some [0xad],
      some [0xae], some [0xaf], some [0xb0], some [0xb1], some [0xb2], some [0xb3], some [0xb4],
      some [0xb5], some [0xb6], some [0xb7], some [0xb8], some [0xb9], some [0xba], some [0xbb],
      some [0xbc], some [0xbd], some [0xbe], some [0xbf], some [0xc0], some [0xc1], some [0xc2],
      some [0xc3], some [0xc4], some [0xc5], some [0xc6], some [0xc7], some [0xc8], some [0xc9],
      some [0xca], some [0xcb], some [0xcc], some [0xcd], some [0xce], some [0xcf], some [0xd0],
      some [0xd1], some [0xd2], some [0xd3], some [0xd4], some [0xd5], some [0xd6], some [0xd7],
      some [0xd8], some [0xd9], some [0xda], none, none, none, none, some [0xdf], some [0xe0],
      some [0xe1], some [0xe2], some [0xe3], some [0xe4], some [0xe5], some [0xe6], some [0xe7],
      some [0xe8], some [0xe9], some [0xea], some [0xeb], some [0xec], some [0xed], some [0xee],
      some [0xef], some [0xf0], some [0xf1], some [0xf2], some [0xf3], some [0xf4], some [0xf5],
      some [0xf6], some [0xf7], some [0xf8], some [0xf9], some [0xfa], some [0xfb], none, none,
      none, none]),
    (0x2018, 0x2020, .table [
      some [0x91], some [0x92], none, none, some [0x93], some [0x94], none, none]),
    (0x2013, 0x2014, .const [0x96]),
    (0x2014, 0x2015, .const [0x97]),
    (0x2022, 0x2023, .const [0x95]),
    (0x2026, 0x2027, .const [0x85]),
    (0x20ac, 0x20ad, .const [0x80])]

end Keramics.CodePage
