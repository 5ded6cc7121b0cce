import Verif.Model.Finder

/-!
# C67: the finder gives every file entry once
-/

namespace Keramics.Finder
open Spec (Files Found Tree Forest)

variable {E N : Type} {fs : Files E N}

/-- Turns of the loop that give the listed results. -/
inductive Runs (fs : Files E N) : Finder E N → List (Found E N) → Finder E N → Prop
  | refl (f) : Runs fs f [] f
  | goes {f g h xs} : turn fs f = .ok (.goes g) → Runs fs g xs h → Runs fs f xs h
  | gives {f g h x xs} : turn fs f = .ok (.gives x g) → Runs fs g xs h → Runs fs f (x :: xs) h

theorem Runs.trans {f g h : Finder E N} {xs ys : List (Found E N)} (a : Runs fs f xs g) (b : Runs fs g ys h) : Runs fs f (xs ++ ys) h := by
  induction a with
  | refl => exact b
  | goes e _ ih => exact .goes e (ih b)
  | gives e _ ih => exact .gives e (ih b)

mutual
theorem tree_runs (t : Tree E) (e : E) (h : t.IsBelow fs e) (path : List (Option N)) (rest : List (Frame E)) (st : Bool) :
    ∃ n, fs.number e = .ok n ∧ Runs fs ⟨path ++ [fs.name e], ⟨e, n, 0⟩ :: rest, st⟩ (t.found fs path) ⟨path, rest, st⟩ := by
  match t, h with
  | .node a subs, ⟨he, hn, hs⟩ =>
    subst he
    refine ⟨_, hn, ?_⟩
    have hf := forest_runs subs a 0 hs (path ++ [fs.name a]) rest st
    rw [Nat.zero_add] at hf
    refine hf.trans (.gives (g := ⟨path, rest, st⟩) ?_ (.refl _))
    simp [turn]
theorem forest_runs (s : Forest E) (e : E) (i : Nat) (h : s.AreIn fs e i) (path : List (Option N)) (rest : List (Frame E)) (st : Bool) :
    Runs fs ⟨path, ⟨e, i + s.length, i⟩ :: rest, st⟩ (s.found fs path) ⟨path, ⟨e, i + s.length, i + s.length⟩ :: rest, st⟩ := by
  match s, h with
  | .nil, _ => exact .refl _
  | .opened t more, ⟨⟨c, hc, ht⟩, hm⟩ =>
    obtain ⟨n, hn, hr⟩ := tree_runs t c ht path (⟨e, i + (more.length + 1), i + 1⟩ :: rest) st
    have hmore := forest_runs more e (i + 1) hm path rest st
    rw [show i + 1 + more.length = i + (more.length + 1) by omega] at hmore
    refine .goes (g := ⟨path ++ [fs.name c], ⟨c, n, 0⟩ :: ⟨e, i + (more.length + 1), i + 1⟩ :: rest, st⟩) ?_ (hr.trans hmore)
    show turn fs ⟨path, ⟨e, i + (more.length + 1), i⟩ :: rest, st⟩ = _
    simp only [turn]
    rw [if_neg (by simp)]
    simp only [descend, hc, enter, hn]
  | .lost more, ⟨hl, hm⟩ =>
    have hmore := forest_runs more e (i + 1) hm path rest st
    rw [show i + 1 + more.length = i + (more.length + 1) by omega] at hmore
    refine .gives (g := ⟨path, ⟨e, i + (more.length + 1), i + 1⟩ :: rest, st⟩) ?_ hmore
    show turn fs ⟨path, ⟨e, i + (more.length + 1), i⟩ :: rest, st⟩ = _
    simp only [turn]
    rw [if_neg (by simp)]
    rcases hl with hl | ⟨c, hc, hn⟩
    · simp only [descend, hl]
    · simp only [descend, hc, enter, hn]
end

/-- A call of `next` when the search has started. -/
theorem next_started (f : Finder E N) (h : f.started = true) (fuel : Nat) : next fs fuel f = loop fs fuel f := by
  simp [next, h]

theorem turn_started {f g : Finder E N} (h : turn fs f = .ok (.goes g)) : g.started = f.started := by
  simp only [turn] at h
  split at h
  · simp at h
  · split at h
    · simp at h
    · simp only [descend] at h
      split at h
      · simp only [enter] at h
        split at h <;> simp at h
        rw [← h]
      · simp at h
      · simp at h

theorem turn_gives {f g : Finder E N} {x : Found E N} (h : turn fs f = .ok (.gives x g)) : g.started = f.started := by
  simp only [turn] at h
  split at h
  · simp at h
  · split at h
    · simp at h
      rw [← h.2]
    · simp only [descend] at h
      split at h
      · simp only [enter] at h
        split at h <;> simp at h
        rw [← h.2]
      · simp at h
        rw [← h.2]
      · simp at h

/-- More fuel does not change a result. -/
theorem loop_mono {fuel more : Nat} {f : Finder E N} {y} (h : loop fs fuel f = .ok y) (hm : fuel ≤ more) : loop fs more f = .ok y := by
  induction fuel generalizing more f with
  | zero => simp [loop] at h
  | succ fuel ih =>
    obtain ⟨more, rfl⟩ : ∃ m, more = m + 1 := ⟨more - 1, by omega⟩
    simp only [loop] at h ⊢
    split at h <;> simp_all

/-- The search at its end gives nothing more. -/
theorem calls_ended (path : List (Option N)) (fuel k : Nat) (hf : 0 < fuel) :
    calls fs fuel k ⟨path, [], true⟩ = .ok (List.replicate k none) := by
  induction k with
  | zero => rfl
  | succ k ih =>
    obtain ⟨fuel, rfl⟩ : ∃ m, fuel = m + 1 := ⟨fuel - 1, by omega⟩
    have : next fs (fuel + 1) ⟨path, [], true⟩ = .ok (none, ⟨path, [], true⟩) := by simp [next, loop, turn]
    simp only [calls, this, R.ok_bind, ih, List.replicate_succ]
    rfl

/-- Turns up to the next result. -/
theorem Runs.cons {f g : Finder E N} {x : Found E N} {xs : List (Found E N)} (h : Runs fs f (x :: xs) g) :
    ∃ fuel m, loop fs fuel f = .ok (some x, m) ∧ m.started = f.started ∧ Runs fs m xs g := by
  generalize hl : x :: xs = l at h
  induction h with
  | refl => simp at hl
  | goes e _ ih =>
    obtain ⟨fuel, m, h1, h2, h3⟩ := ih hl
    exact ⟨fuel + 1, m, by simp only [loop, e, h1], h2.trans (turn_started e), h3⟩
  | gives e r _ =>
    obtain ⟨rfl, rfl⟩ := List.cons.inj hl
    exact ⟨1, _, by simp only [loop, e], turn_gives e, r⟩

theorem Runs.nil {f : Finder E N} {path : List (Option N)} (h : Runs fs f [] ⟨path, [], true⟩) :
    ∃ fuel, loop fs fuel f = .ok (none, ⟨path, [], true⟩) := by
  generalize hl : ([] : List (Found E N)) = l at h
  generalize hg : (⟨path, [], true⟩ : Finder E N) = g at h
  induction h with
  | refl => subst hg; exact ⟨1, by simp [loop, turn]⟩
  | goes e _ ih =>
    obtain ⟨fuel, h1⟩ := ih hl hg
    exact ⟨fuel + 1, by simp only [loop, e, h1]⟩
  | gives => simp at hl

theorem Runs.calls {f : Finder E N} {xs : List (Found E N)} {path : List (Option N)} (h : Runs fs f xs ⟨path, [], true⟩) (hs : f.started = true) :
    ∃ fuel0, ∀ fuel, fuel0 ≤ fuel → ∀ k, calls fs fuel (xs.length + k) f = .ok (xs.map some ++ List.replicate k none) := by
  induction xs generalizing f with
  | nil =>
    obtain ⟨n, hn⟩ := h.nil
    refine ⟨n + 1, fun fuel hf k => ?_⟩
    cases k with
    | zero => rfl
    | succ k =>
      rw [show ([] : List (Found E N)).length + (k + 1) = k + 1 by simp]
      simp only [Finder.calls, next_started f hs, loop_mono hn (by omega : n ≤ fuel), R.ok_bind,
        calls_ended path fuel k (by omega), List.map_nil, List.nil_append, List.replicate_succ]
      rfl
  | cons x xs ih =>
    obtain ⟨n, m, hn, hm, hr⟩ := h.cons
    obtain ⟨n2, h2⟩ := ih hr (hm.trans hs)
    refine ⟨n + n2, fun fuel hf k => ?_⟩
    rw [show (x :: xs).length + k = xs.length + k + 1 by simp; omega]
    simp only [Finder.calls, next_started f hs, loop_mono hn (by omega : n ≤ fuel), R.ok_bind, h2 fuel (by omega) k]
    rfl

end Keramics.Finder

namespace Keramics.Props
open Spec (Files Found Tree Forest)

variable {E N : Type}

/-- C67: for a file system whose file entries are a tree, the calls of `next` give every file entry of the tree exactly once, each
after its sub file entries, with the names from the root to it, and an error for every sub file entry that cannot be opened; after
that they give nothing, forever. No call runs without end. -/
theorem C67_every_entry_once (fs : Files E N) (root : E) (tree : Tree E) (hr : fs.root = .ok (some root)) (ht : tree.IsBelow fs root) :
    ∃ enough, ∀ fuel, enough ≤ fuel → ∀ k,
      Finder.calls fs fuel ((tree.found fs []).length + k) Finder.new = .ok ((tree.found fs []).map some ++ List.replicate k none) := by
  obtain ⟨n, hn, hruns⟩ := Finder.tree_runs tree root ht [] [] true
  obtain ⟨fuel0, h0⟩ := hruns.calls rfl
  refine ⟨fuel0, fun fuel hf k => ?_⟩
  have hstart : Finder.start fs { (Finder.new : Finder.Finder E N) with started := true }
      = .ok (.goes ⟨[] ++ [fs.name root], ⟨root, n, 0⟩ :: [], true⟩) := by
    simp only [Finder.start, hr, Finder.enter, hn, Finder.new]
  have hne : tree.found fs [] ≠ [] := by
    cases tree with
    | node e s => simp [Tree.found]
  obtain ⟨m, hm⟩ : ∃ m, (tree.found fs []).length + k = m + 1 :=
    ⟨(tree.found fs []).length + k - 1, by have := List.length_pos_iff.2 hne; omega⟩
  have hk := h0 fuel hf k
  rw [hm] at hk ⊢
  simp only [Finder.calls] at hk ⊢
  have hnext : Finder.next fs fuel Finder.new = Finder.next fs fuel ⟨[] ++ [fs.name root], ⟨root, n, 0⟩ :: [], true⟩ := by
    rw [Finder.next_started (⟨[] ++ [fs.name root], ⟨root, n, 0⟩ :: [], true⟩ : Finder.Finder E N) rfl]
    simp only [Finder.next, hstart]
    simp [Finder.new]
  rw [hnext]
  exact hk

/-- C67 for a file system without a root file entry, or with one that cannot be read: nothing, or one error, and then nothing. -/
theorem C67_no_root (fs : Files E N) :
    (fs.root = .ok none → ∀ fuel k, 0 < fuel → Finder.calls fs fuel k Finder.new = .ok (List.replicate k none)) ∧
    ((fs.root = .err ∨ ∃ e, fs.root = .ok (some e) ∧ fs.number e = .err) → ∀ fuel k, 0 < fuel →
      Finder.calls fs fuel (k + 1) Finder.new = .ok (some .error :: List.replicate k none)) := by
  constructor
  · intro h fuel k hf
    cases k with
    | zero => rfl
    | succ k =>
      have : Finder.next fs fuel Finder.new = .ok (none, ⟨[], [], true⟩) := by simp [Finder.next, Finder.new, Finder.start, h]
      simp only [Finder.calls, this, R.ok_bind, Finder.calls_ended [] fuel k hf, List.replicate_succ]
      rfl
  · intro h fuel k hf
    have : Finder.next fs fuel Finder.new = .ok (some .error, ⟨[], [], true⟩) := by
      rcases h with h | ⟨e, h, h2⟩
      · simp [Finder.next, Finder.new, Finder.start, h]
      · simp [Finder.next, Finder.new, Finder.start, h, Finder.enter, h2]
    simp only [Finder.calls, this, R.ok_bind, Finder.calls_ended [] fuel k hf]
    rfl

/-- C67 does not hold for file entries that are no tree: a directory that is its own first sub file entry, as damaged directories of
ext and NTFS volumes can be, is searched without end and nothing is ever given. -/
theorem C67_violated_cycle (fs : Files E N) (root : E) (n : Nat) (hr : fs.root = .ok (some root)) (hn : fs.number root = .ok (n + 1))
    (hs : fs.sub root 0 = .ok root) (fuel : Nat) : Finder.next fs fuel Finder.new = .panic := by
  have key : ∀ fuel path rest, Finder.loop fs fuel ⟨path, ⟨root, n + 1, 0⟩ :: rest, true⟩ = .panic := by
    intro fuel
    induction fuel with
    | zero => intros; rfl
    | succ fuel ih =>
      intro path rest
      have ht : Finder.turn fs ⟨path, ⟨root, n + 1, 0⟩ :: rest, true⟩
          = .ok (.goes ⟨path ++ [fs.name root], ⟨root, n + 1, 0⟩ :: ⟨root, n + 1, 1⟩ :: rest, true⟩) := by
        simp [Finder.turn, Finder.descend, hs, Finder.enter, hn]
      simp only [Finder.loop, ht]
      exact ih _ _
  simp only [Finder.next, Finder.new, Finder.start, hr, Finder.enter, hn]
  exact key fuel _ _

/-- Not vacuous: a root with a directory with one file, a sub file entry that cannot be opened and another file. -/
example : ∃ enough, ∀ fuel, enough ≤ fuel → Finder.calls (E := Nat) (N := Nat)
    ⟨.ok (some 1), fun e => if e = 1 then .ok 3 else if e = 2 then .ok 1 else .ok 0, fun e => if e = 1 then none else some (e * 100),
      fun e i => if e = 1 ∧ i = 1 then .err else .ok (2 * e + i)⟩ fuel 6 Finder.new
    = .ok [some (.entry 4 [none, some 200, some 400]), some (.entry 2 [none, some 200]), some .error, some (.entry 4 [none, some 400]),
        some (.entry 1 [none]), none] := by
  obtain ⟨n, h⟩ := C67_every_entry_once (E := Nat) (N := Nat)
    ⟨.ok (some 1), fun e => if e = 1 then .ok 3 else if e = 2 then .ok 1 else .ok 0, fun e => if e = 1 then none else some (e * 100),
      fun e i => if e = 1 ∧ i = 1 then .err else .ok (2 * e + i)⟩ 1
    (.node 1 (.opened (.node 2 (.opened (.node 4 .nil) .nil)) (.lost (.opened (.node 4 .nil) .nil)))) rfl
    ⟨rfl, rfl, ⟨2, rfl, rfl, rfl, ⟨4, rfl, rfl, rfl, trivial⟩, trivial⟩, Or.inl rfl, ⟨4, rfl, rfl, rfl, trivial⟩, trivial⟩
  exact ⟨n, fun fuel hf => h fuel hf 1⟩

end Keramics.Props
