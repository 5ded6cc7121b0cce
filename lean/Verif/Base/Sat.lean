import Verif.Base.Ints

/-!
# Partial correctness without panics

`R.Sat x P`: the outcome `x` is not a panic and, if it is a normal return, the value satisfies `P`.
-/

namespace Keramics
namespace R

def Sat {α : Type u} (x : R α) (P : α → Prop) : Prop :=
  match x with
  | ok a => P a
  | err => True
  | panic => False

theorem Sat.ne_panic {α} {x : R α} {P} (h : Sat x P) : x ≠ panic := by
  intro e; rw [e] at h; exact h

theorem Sat.of_ok {α} {x : R α} {P} {a} (h : Sat x P) (e : x = ok a) : P a := by
  rw [e] at h; exact h

theorem Sat.intro {α} {x : R α} {P : α → Prop} (h1 : x ≠ panic) (h2 : ∀ a, x = ok a → P a) :
    Sat x P := by
  cases x with
  | ok a => exact h2 a rfl
  | err => trivial
  | panic => exact absurd rfl h1

theorem sat_ok {α} {a : α} {P : α → Prop} (h : P a) : Sat (ok a) P := h
theorem sat_pure {α} {a : α} {P : α → Prop} (h : P a) : Sat (pure a : R α) P := h
theorem sat_err {α} {P : α → Prop} : Sat (err : R α) P := trivial

theorem Sat.mono {α} {x : R α} {P Q : α → Prop} (h : Sat x P) (hpq : ∀ a, P a → Q a) : Sat x Q := by
  cases x with
  | ok a => exact hpq a h
  | err => trivial
  | panic => exact h

theorem Sat.bind {α β} {x : R α} {f : α → R β} {P : α → Prop} {Q : β → Prop}
    (hx : Sat x P) (hf : ∀ a, P a → Sat (f a) Q) : Sat (x >>= f) Q := by
  cases x with
  | ok a => exact hf a hx
  | err => trivial
  | panic => exact hx

theorem sat_require {c : Prop} [Decidable c] : Sat (require c) (fun _ => c) := by
  unfold require
  split
  · assumption
  · trivial

theorem sat_check {c : Prop} [Decidable c] (h : c) : Sat (check c) (fun _ => c) := by
  rw [check_true h]; exact h

theorem sat_get {α} {l : List α} {i : Nat} (h : i < l.length) : Sat (get l i) (fun a => l[i]? = some a) := by
  rw [get_ok h]; simp [Sat, h]

theorem sat_subU {a b : Nat} (h : b ≤ a) : Sat (subU a b) (fun c => c = a - b) := by
  rw [subU_ok h]; rfl

theorem sat_addU {n a b : Nat} (h : a + b < 2 ^ n) : Sat (addU n a b) (fun c => c = a + b) := by
  rw [addU_ok h]; rfl

theorem sat_mulU {n a b : Nat} (h : a * b < 2 ^ n) : Sat (mulU n a b) (fun c => c = a * b) := by
  rw [mulU_ok h]; rfl

theorem sat_slice {α} {l : List α} {a b : Nat} (h : a ≤ b) (h' : b ≤ l.length) :
    Sat (slice l a b) (fun s => s = (l.drop a).take (b - a)) := by
  rw [slice_ok h h']; rfl

theorem sat_ite {α} {c : Prop} [Decidable c] {x y : R α} {P} (h1 : c → Sat x P) (h2 : ¬c → Sat y P) :
    Sat (if c then x else y) P := by
  split
  · exact h1 ‹_›
  · exact h2 ‹_›

/-! ## Reading at an offset, in terms of what is left from there -/

theorem get_of_drop {α} {l : List α} {i : Nat} {a : α} {post} (h : l.drop i = a :: post) :
    get l i = ok a := by
  have : l[i]? = some a := by
    have := List.head?_drop (l := l) (i := i)
    rw [h] at this
    simpa using this.symm
  simp [get, this]

theorem drop_succ_of_drop {α} {l : List α} {i : Nat} {a : α} {post} (h : l.drop i = a :: post) :
    l.drop (i + 1) = post := by
  rw [← List.drop_drop, h]; rfl

theorem drop_of_get {α} {l : List α} {i : Nat} {a : α} (h : l[i]? = some a) :
    l.drop i = a :: l.drop (i + 1) := by
  obtain ⟨h1, h2⟩ := List.getElem?_eq_some_iff.mp h
  rw [List.drop_eq_getElem_cons h1, h2]

theorem drop_add_of_drop {α} {l s post : List α} {i : Nat} (h : l.drop i = s ++ post) :
    l.drop (i + s.length) = post := by
  rw [← List.drop_drop, h]; simp

theorem length_of_drop {α} {l s post : List α} {i : Nat} (h : l.drop i = s ++ post) (hs : s ≠ []) :
    l.length = i + s.length + post.length := by
  have h1 : (l.drop i).length = s.length + post.length := by rw [h]; simp
  rw [List.length_drop] at h1
  have : 0 < s.length := List.length_pos_iff.mpr hs
  omega

theorem slice_of_drop {α} {l s post : List α} {i : Nat} (h : l.drop i = s ++ post) (hi : i ≤ l.length) :
    slice l i (i + s.length) = ok s := by
  have h1 : (l.drop i).length = s.length + post.length := by rw [h]; simp
  rw [List.length_drop] at h1
  rw [slice_ok (by omega) (by omega), h]
  simp

end R
end Keramics
