import Verif.Base.R

/-!
Lempel-Ziv semantics: literals append bytes, a copy of length `n` at distance `d` appends `n` times
the byte `d` positions before the end of the output so far (so it may overlap itself).
-/

namespace Keramics.Spec.Lz

def copy (d : Nat) : Nat → List Byte → List Byte
  | 0, out => out
  | n + 1, out => copy d n (out ++ [out.getD (out.length - d) 0])

inductive Op where
  | literal (bytes : List Byte)
  | copy (distance length : Nat)

def Op.run (out : List Byte) : Op → List Byte
  | .literal bytes => out ++ bytes
  | .copy d n => Lz.copy d n out

/-- A copy refers to bytes that exist. -/
def Op.ok (out : List Byte) : Op → Prop
  | .literal _ => True
  | .copy d _ => 1 ≤ d ∧ d ≤ out.length

/-- The output of a list of operations, after `out`. -/
def run (out : List Byte) : List Op → List Byte
  | [] => out
  | op :: ops => run (op.run out) ops

def Ok (out : List Byte) : List Op → Prop
  | [] => True
  | op :: ops => op.ok out ∧ Ok (op.run out) ops

end Keramics.Spec.Lz
