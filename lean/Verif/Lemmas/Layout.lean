import Verif.Lemmas.BlockTree
import Verif.Lemmas.Blocks

/-!
Ranges that follow each other without gaps, and the bytes they stand for.
-/

namespace Keramics.Layout

variable {ρ α : Type}

/-- The ranges of a list of items one after the other, from an offset on. -/
def ranges (len : ρ → Nat) (val : Nat → ρ → α) : Nat → List ρ → List (Spec.BlockTree.Range α)
  | _, [] => []
  | off, r :: rs => ⟨off, len r, val off r⟩ :: ranges len val (off + len r) rs

/-- The size of all items. -/
def total (len : ρ → Nat) (rs : List ρ) : Nat := (rs.map len).sum

theorem total_cons (len : ρ → Nat) (r : ρ) (rs : List ρ) : total len (r :: rs) = len r + total len rs := by
  simp [total]

theorem ranges_append (len : ρ → Nat) (val : Nat → ρ → α) (off : Nat) (rs rs' : List ρ) :
    ranges len val off (rs ++ rs') = ranges len val off rs ++ ranges len val (off + total len rs) rs' := by
  induction rs generalizing off with
  | nil => simp [ranges, total]
  | cons r rs ih => rw [List.cons_append, ranges, ih, ranges, total_cons, List.cons_append, Nat.add_assoc]

theorem total_append (len : ρ → Nat) (rs rs' : List ρ) : total len (rs ++ rs') = total len rs + total len rs' := by
  simp [total]

theorem flatMap_length (len : ρ → Nat) (bytes : ρ → List Byte) (rs : List ρ) (h : ∀ r ∈ rs, (bytes r).length = len r) :
    (rs.flatMap bytes).length = total len rs := by
  induction rs with
  | nil => rfl
  | cons r rs ih =>
    rw [List.flatMap_cons, List.length_append, h r (by simp), ih (fun x hx => h x (List.mem_cons_of_mem _ hx)), total_cons]

/-- The range at a position, with the bytes from there on. -/
theorem at_pos (len : ρ → Nat) (val : Nat → ρ → α) (bytes : ρ → List Byte) (base : Nat) (rs : List ρ)
    (h : ∀ r ∈ rs, (bytes r).length = len r) {pos : Nat} (hpos : pos < total len rs) :
    ∃ off r, r ∈ rs ∧ ⟨base + off, len r, val (base + off) r⟩ ∈ ranges len val base rs ∧ off ≤ pos ∧ pos < off + len r ∧
      off + len r ≤ total len rs ∧
      ∀ i, pos - off + i < len r → (rs.flatMap bytes)[pos + i]? = (bytes r)[pos - off + i]? := by
  induction rs generalizing base pos with
  | nil => simp [total] at hpos
  | cons r rs ih =>
    have hr := h r (by simp)
    rw [total_cons] at hpos
    by_cases hp : pos < len r
    · refine ⟨0, r, by simp, by simp [ranges], by omega, by omega, by rw [total_cons]; omega, fun i hi => ?_⟩
      rw [List.flatMap_cons, List.getElem?_append_left (by omega)]; simp
    · obtain ⟨off, x, h1, h2, h3, h4, h5, h6⟩ := ih (base + len r) (fun x hx => h x (List.mem_cons_of_mem _ hx))
        (pos := pos - len r) (by omega)
      refine ⟨len r + off, x, List.mem_cons_of_mem _ h1, ?_, by omega, by omega, by rw [total_cons]; omega, fun i hi => ?_⟩
      · rw [ranges, ← Nat.add_assoc]; exact List.mem_cons_of_mem _ h2
      · rw [List.flatMap_cons, List.getElem?_append_right (by omega), hr, show pos + i - len r = pos - len r + i by omega,
          h6 i (by omega)]
        congr 1; omega

theorem ranges_end (len : ρ → Nat) (val : Nat → ρ → α) (off : Nat) (rs : List ρ) {r} (h : r ∈ ranges len val off rs) :
    r.offset + r.size ≤ off + total len rs := by
  induction rs generalizing off with
  | nil => cases h
  | cons x rs ih =>
    rw [total_cons]
    rcases List.mem_cons.1 h with rfl | h
    · simp only; omega
    · have := ih _ h; omega

end Keramics.Layout
