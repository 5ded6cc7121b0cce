/-! # A map from ranges to values: what a block tree stands for -/

namespace Keramics.Spec.BlockTree

/-- A range with a value. -/
structure Range (α : Type) where
  offset : Nat
  size : Nat
  value : α

/-- The position is in the range. -/
def Range.has {α : Type} (r : Range α) (x : Nat) : Prop := r.offset ≤ x ∧ x < r.offset + r.size

instance {α : Type} (r : Range α) (x : Nat) : Decidable (r.has x) :=
  inferInstanceAs (Decidable (_ ∧ _))

/-- The two ranges have no position in common. -/
def Range.apart {α : Type} (r s : Range α) : Prop := ∀ x, ¬(r.has x ∧ s.has x)

/-- `got` is the right answer for a look-up at `x`: the value of a range that has `x`, nothing if no
range does. -/
def Answer {α : Type} (rs : List (Range α)) (x : Nat) : Option α → Prop
  | some v => ∃ r ∈ rs, r.has x ∧ r.value = v
  | none => ∀ r ∈ rs, ¬r.has x

end Keramics.Spec.BlockTree
