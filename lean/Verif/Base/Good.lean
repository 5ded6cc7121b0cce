import Verif.Base.Sat

/-!
A result that satisfies a predicate, without a panic, and under a condition without an error.
-/

namespace Keramics.R

/-- The result satisfies `P`, there is no panic, and under `c` no error. -/
def Good {α} (c : Prop) (x : R α) (P : α → Prop) : Prop := R.Sat x P ∧ (c → x ≠ .err)

variable {α β : Type} {c c' : Prop}

theorem Good.bind {x : R α} {P : α → Prop} {g : α → R β} {Q : β → Prop} (h : Good c x P)
    (hg : ∀ a, P a → Good c (g a) Q) : Good c (x >>= g) Q := by
  cases x with
  | ok a => exact hg a h.1
  | err => exact ⟨trivial, fun hc => absurd rfl (h.2 hc)⟩
  | panic => exact h.1.elim

theorem Good.ok {a : α} {P : α → Prop} (h : P a) : Good c (.ok a) P := ⟨h, fun _ => by simp⟩

theorem Good.mono {x : R α} {P Q : α → Prop} (h : Good c x P) (hc : c' → c) (hq : ∀ a, P a → Q a) : Good c' x Q :=
  ⟨h.1.mono hq, fun k => h.2 (hc k)⟩

theorem Good.err {P : α → Prop} (h : ¬ c) : Good c (.err : R α) P := ⟨trivial, fun k => absurd k h⟩

theorem Good.require {p : Prop} [Decidable p] (h : c → p) : Good c (R.require p) (fun _ => p) := by
  unfold R.require
  split
  · rename_i hp; exact Good.ok hp
  · rename_i hp; exact Good.err fun k => hp (h k)

theorem Good.ne_panic {x : R α} {P : α → Prop} (h : Good c x P) : x ≠ .panic := h.1.ne_panic

theorem Good.of_ok {x : R α} {P : α → Prop} (h : Good c x P) {a : α} (e : x = .ok a) : P a := h.1.of_ok e

theorem Good.exists_ok {x : R α} {P : α → Prop} (h : Good c x P) (hc : c) : ∃ a, x = .ok a ∧ P a := by
  cases x with
  | ok a => exact ⟨a, rfl, h.1⟩
  | err => exact absurd rfl (h.2 hc)
  | panic => exact h.1.elim

end Keramics.R
