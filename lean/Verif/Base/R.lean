/-!
# Outcomes

`R α` is the result of a modelled Rust function: `ok` is a normal return (or `Ok`), `err` is a
returned `Err(ErrorTrace)` (the message is not modelled), `panic` is any panic of a build with
overflow checks: index out of bounds, integer overflow, `unwrap` of `None`, `todo!()`.
-/

namespace Keramics

/-- A byte (`u8`). -/
abbrev Byte := BitVec 8

/-- Outcome of a modelled function. -/
inductive R (α : Type u) where
  | ok (a : α)
  | err
  | panic
deriving DecidableEq, Repr

namespace R

/-- Sequencing: `err` and `panic` short-circuit, like `?` and unwinding do. -/
protected def bind {α : Type u} {β : Type v} : R α → (α → R β) → R β
  | ok a, f => f a
  | err, _ => err
  | panic, _ => panic

instance : Monad R where
  pure := R.ok
  bind := R.bind

@[simp] theorem pure_eq {α} (a : α) : (pure a : R α) = ok a := rfl
@[simp] theorem ok_bind {α β} (a : α) (f : α → R β) : (ok a >>= f) = f a := rfl
@[simp] theorem err_bind {α β} (f : α → R β) : ((err : R α) >>= f) = err := rfl
@[simp] theorem panic_bind {α β} (f : α → R β) : ((panic : R α) >>= f) = panic := rfl
@[simp] theorem ok_map {α β} (a : α) (f : α → β) : (f <$> (ok a)) = ok (f a) := rfl
@[simp] theorem err_map {α β} (f : α → β) : (f <$> (err : R α)) = err := rfl
@[simp] theorem panic_map {α β} (f : α → β) : (f <$> (panic : R α)) = panic := rfl

instance : LawfulMonad R := LawfulMonad.mk'
  (id_map := by intro _ x; cases x <;> rfl)
  (pure_bind := by intros; rfl)
  (bind_assoc := by intro _ _ _ x _ _; cases x <;> rfl)

/-- `if !c { return Err(..) }` -/
def require (c : Prop) [Decidable c] : R Unit := if c then ok () else err

/-- An implicit run-time check (bounds, overflow) that panics when it fails. -/
def check (c : Prop) [Decidable c] : R Unit := if c then ok () else panic

@[simp] theorem require_true {c : Prop} [Decidable c] (h : c) : require c = ok () := by
  simp [require, h]
@[simp] theorem require_false {c : Prop} [Decidable c] (h : ¬c) : require c = err := by
  simp [require, h]
@[simp] theorem check_true {c : Prop} [Decidable c] (h : c) : check c = ok () := by
  simp [check, h]
@[simp] theorem check_false {c : Prop} [Decidable c] (h : ¬c) : check c = panic := by
  simp [check, h]

theorem require_eq_ok {c : Prop} [Decidable c] {u : Unit} : require c = ok u ↔ c := by
  unfold require; split <;> simp_all
theorem check_eq_ok {c : Prop} [Decidable c] {u : Unit} : check c = ok u ↔ c := by
  unfold check; split <;> simp_all

theorem bind_eq_ok {α β} {x : R α} {f : α → R β} {b : β} :
    (x >>= f) = ok b ↔ ∃ a, x = ok a ∧ f a = ok b := by
  cases x <;> simp

theorem bind_eq_panic {α β} {x : R α} {f : α → R β} :
    (x >>= f) = panic ↔ x = panic ∨ ∃ a, x = ok a ∧ f a = panic := by
  cases x <;> simp

theorem bind_eq_err {α β} {x : R α} {f : α → R β} :
    (x >>= f) = err ↔ x = err ∨ ∃ a, x = ok a ∧ f a = err := by
  cases x <;> simp

/-- `a + b` on an unsigned type of `n` bits with overflow check. -/
def addU (n a b : Nat) : R Nat := if a + b < 2 ^ n then ok (a + b) else panic
/-- `a - b` on an unsigned type with underflow check. -/
def subU (a b : Nat) : R Nat := if b ≤ a then ok (a - b) else panic
/-- `a * b` on an unsigned type of `n` bits with overflow check. -/
def mulU (n a b : Nat) : R Nat := if a * b < 2 ^ n then ok (a * b) else panic
/-- `l[i]` -/
def get {α} (l : List α) (i : Nat) : R α := match l[i]? with
  | some a => ok a
  | none => panic
/-- `l[i] = v` -/
def set {α} (l : List α) (i : Nat) (v : α) : R (List α) :=
  if i < l.length then ok (l.set i v) else panic
/-- `l[a..b]` (panics unless `a ≤ b ≤ len`) -/
def slice {α} (l : List α) (a b : Nat) : R (List α) :=
  if a ≤ b ∧ b ≤ l.length then ok ((l.drop a).take (b - a)) else panic

theorem addU_ok {n a b : Nat} (h : a + b < 2 ^ n) : addU n a b = ok (a + b) := by simp [addU, h]
theorem subU_ok {a b : Nat} (h : b ≤ a) : subU a b = ok (a - b) := by simp [subU, h]
theorem mulU_ok {n a b : Nat} (h : a * b < 2 ^ n) : mulU n a b = ok (a * b) := by simp [mulU, h]
theorem get_ok {α} {l : List α} {i : Nat} (h : i < l.length) : get l i = ok l[i] := by
  simp [get, h]
theorem set_ok {α} {l : List α} {i : Nat} {v : α} (h : i < l.length) :
    set l i v = ok (l.set i v) := by simp [set, h]
theorem slice_ok {α} {l : List α} {a b : Nat} (h : a ≤ b) (h' : b ≤ l.length) :
    slice l a b = ok ((l.drop a).take (b - a)) := by simp [slice, h, h']

end R
end Keramics
