import Verif.Model.Location
import Verif.Spec.Location

/-! # Property theorems: the text of a location (C89) -/

namespace Keramics.Props
open Keramics.Spec Keramics.Spec.Location Keramics.Location
open Keramics.Vfs (Location VfsType)

private theorem typeText_eq {type : VfsType} {name : String} (h : (type, name) ∈ names) : typeText type = codePoints name := by
  simp only [names, List.mem_cons, Prod.mk.injEq, List.not_mem_nil, or_false] at h
  rcases h with ⟨rfl, rfl⟩ | ⟨rfl, rfl⟩ | ⟨rfl, rfl⟩ | ⟨rfl, rfl⟩ | ⟨rfl, rfl⟩ | ⟨rfl, rfl⟩ | ⟨rfl, rfl⟩ | ⟨rfl, rfl⟩ | ⟨rfl, rfl⟩ | ⟨rfl, rfl⟩ |
    ⟨rfl, rfl⟩ | ⟨rfl, rfl⟩ | ⟨rfl, rfl⟩ | ⟨rfl, rfl⟩ <;> rfl

private theorem levels_ne {l : Location Path.VfsPath} {levels : List (VfsType × Path.VfsPath)} (h : Levels l levels) : levels ≠ [] := by
  induction h with
  | base => simp
  | layer => simp

/-- The names start with a capital letter. -/
private theorem typeText_head (type : VfsType) : ∃ c l, typeText type = c :: l ∧ c ≠ 0x74 := by
  cases type <;> exact ⟨_, _, rfl, by decide⟩

/-- C89. The text of a location without layers is its line. -/
theorem C89_base (l : Location Path.VfsPath) (level : VfsType × Path.VfsPath) (s : List Nat) (hl : Levels l [level]) (ht : Text [level] s) :
    text l = .ok s := by
  generalize he : [level] = levels at hl
  cases hl with
  | base =>
    cases he
    cases ht with
    | line h1 h2 h3 =>
      cases h3
      show (_ >>= _) = _
      rw [h2, R.ok_bind, typeText_eq h1, List.append_nil]
      rfl
  | @layer path parent type levels h =>
    refine absurd ?_ (levels_ne h)
    have := congrArg List.length he
    simp at this
    exact this.symm ▸ rfl

/-- C89. The text of a location has the name of the type and the path of every level in it. Partial: they are not in the lines they should be in,
see `C89_violated_layer`. -/
theorem C89_parts_partial (l : Location Path.VfsPath) (levels : List (VfsType × Path.VfsPath)) (hl : Levels l levels)
    (hp : ∀ level ∈ levels, ∃ p, level.2.text = .ok p) : ∃ s, text l = .ok s ∧ ∀ type path name p, (type, path) ∈ levels → (type, name) ∈ names →
      path.text = .ok p → codePoints name <:+: s ∧ p <:+: s := by
  induction hl with
  | @base path type =>
    obtain ⟨q, hq⟩ := hp (type, path) (by simp)
    refine ⟨_, by show (path.text >>= _) = _; rw [hq]; rfl, ?_⟩
    intro type' path' name p hm hn hpt
    simp only [List.mem_singleton, Prod.mk.injEq] at hm
    obtain ⟨rfl, rfl⟩ := hm
    cases hq.symm.trans hpt
    rw [typeText_eq hn]
    exact ⟨⟨codePoints "type: ", codePoints ": path: " ++ q ++ codePoints "\n", by simp⟩,
      ⟨codePoints "type: " ++ codePoints name ++ codePoints ": path: ", codePoints "\n", by simp⟩⟩
  | @layer path parent type levels h ih =>
    obtain ⟨a, ha, hi⟩ := ih fun level hm => hp level (by simp [hm])
    obtain ⟨q, hq⟩ := hp (type, path) (by simp)
    refine ⟨_, by show (text parent >>= _) = _; rw [ha, R.ok_bind, hq]; rfl, ?_⟩
    intro type' path' name p hm hn hpt
    rw [List.mem_append, List.mem_singleton, Prod.mk.injEq] at hm
    rcases hm with hm | ⟨rfl, rfl⟩
    · obtain ⟨⟨x, y, h1⟩, ⟨x', y', h2⟩⟩ := hi type' path' name p hm hn hpt
      exact ⟨⟨typeText type ++ codePoints "\ntype: " ++ x, y ++ (codePoints ": path: " ++ q ++ codePoints "\n"), by rw [← h1]; simp⟩,
        ⟨typeText type ++ codePoints "\ntype: " ++ x', y' ++ (codePoints ": path: " ++ q ++ codePoints "\n"), by rw [← h2]; simp⟩⟩
    · cases hq.symm.trans hpt
      rw [typeText_eq hn]
      exact ⟨⟨[], codePoints "\ntype: " ++ a ++ codePoints ": path: " ++ q ++ codePoints "\n", by simp⟩,
        ⟨codePoints name ++ codePoints "\ntype: " ++ a ++ codePoints ": path: ", codePoints "\n", by simp⟩⟩

/-- The text of a location with a layer is never what it should be: the type of the layer comes first, and the text of the parent where the
type belongs. -/
theorem C89_violated_layer (path : Path.VfsPath) (parent : Location Path.VfsPath) (type : VfsType) (levels : List (VfsType × Path.VfsPath)) (s : List Nat)
    (hl : Levels (.layer path parent type) levels) (ht : Text levels s) : text (.layer path parent type) ≠ .ok s := by
  intro h
  cases levels with
  | nil => exact levels_ne hl rfl
  | cons level levels =>
    obtain ⟨rest, hs⟩ : ∃ rest, s = 0x74 :: rest := by
      cases ht with
      | line h1 h2 h3 => exact ⟨_, rfl⟩
    rw [text] at h
    obtain ⟨a, -, h⟩ := R.bind_eq_ok.1 h
    obtain ⟨p, -, h⟩ := R.bind_eq_ok.1 h
    obtain ⟨c, l, hc, hne⟩ := typeText_head type
    rw [hs, hc] at h
    have := R.ok.inj h
    simp only [List.cons_append, List.cons.injEq] at this
    exact hne this.1

/-- C89. A location with a layer more has the levels of the parent first; a location with another path has the same levels but the last path. -/
theorem C89_levels (l : Location Path.VfsPath) (levels : List (VfsType × Path.VfsPath)) (hl : Levels l levels) (type : VfsType) (path : Path.VfsPath) :
    Levels (withLayer l type path) (levels ++ [(type, path)]) ∧
    ∃ outer last, levels = outer ++ [last] ∧ Levels (withParent l path) (outer ++ [(last.1, path)]) := by
  refine ⟨.layer hl, ?_⟩
  cases hl with
  | base => exact ⟨[], _, rfl, .base⟩
  | layer h => exact ⟨_, _, rfl, .layer h⟩

/-- A QCOW image with a partition table: the hypotheses are met. -/
example : ∃ (parent : Location Path.VfsPath) (s : List Nat), let l := Location.layer (.string [[], codePoints "qcow1"]) parent .qcow
    ∃ levels, Levels l levels ∧ levels.length = 2 ∧ Text levels s ∧ (∀ level ∈ levels, ∃ p, level.2.text = .ok p) ∧
    ∃ t, Levels parent [(.os, .string [codePoints "a.qcow2"])] ∧ Text [(.os, .string [codePoints "a.qcow2"])] t := by
  refine ⟨.base (.string [codePoints "a.qcow2"]) .os, _, _, .layer .base, rfl, .line (name := "OS") (by simp [names]) rfl (.line (name := "QCOW") (by simp [names]) rfl .nil), ?_, _, .base,
    .line (name := "OS") (by simp [names]) rfl .nil⟩
  intro level h
  simp only [List.cons_append, List.nil_append, List.mem_cons, List.not_mem_nil, or_false] at h
  rcases h with rfl | rfl
  · exact ⟨_, rfl⟩
  · exact ⟨_, rfl⟩

end Keramics.Props
