import Batteries.Tactic.PermuteGoals
import Mathlib.Tactic.ByContra
import Mathlib.Tactic.Conv
import Mathlib.Tactic.NormNum
import Mathlib.Tactic.Ring

/-! Tactics shared by the proofs. -/
