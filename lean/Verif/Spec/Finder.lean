import Verif.Base.R

/-!
# Specification: the file entries of a file system

A tree of file entries and what is in it, independent of how it is walked.
-/

namespace Keramics.Spec

/-- What a file system tells about its file entries: the root, the number of sub file entries of an entry, its name and the sub
file entry with an index. -/
structure Files (E N : Type) where
  root : R (Option E)
  number : E → R Nat
  name : E → Option N
  sub : E → Nat → R E

mutual
/-- A file entry with what is below it. -/
inductive Tree (E : Type) : Type
  | node (entry : E) (subs : Forest E)
/-- The sub file entries in order, some of which cannot be opened. -/
inductive Forest (E : Type) : Type
  | nil
  | opened (tree : Tree E) (rest : Forest E)
  | lost (rest : Forest E)
end

def Forest.length {E : Type} : Forest E → Nat
  | .nil => 0
  | .opened _ rest => rest.length + 1
  | .lost rest => rest.length + 1

variable {E N : Type}

mutual
/-- The tree is the tree below the file entry. -/
def Tree.IsBelow (fs : Files E N) (e : E) : Tree E → Prop
  | .node entry subs => entry = e ∧ fs.number e = .ok subs.length ∧ subs.AreIn fs e 0
/-- The sub file entries of the file entry from an index on. -/
def Forest.AreIn (fs : Files E N) (e : E) (i : Nat) : Forest E → Prop
  | .nil => True
  | .opened t rest => (∃ s, fs.sub e i = .ok s ∧ t.IsBelow fs s) ∧ rest.AreIn fs e (i + 1)
  | .lost rest => (fs.sub e i = .err ∨ ∃ s, fs.sub e i = .ok s ∧ fs.number s = .err) ∧ rest.AreIn fs e (i + 1)
end

/-- What a search gives: a file entry with the names of the entries from the root to it, or an error. -/
inductive Found (E N : Type)
  | entry (e : E) (path : List (Option N))
  | error
deriving DecidableEq

mutual
/-- Every file entry of the tree once, each after its sub file entries, with the names on the way to it. -/
def Tree.found (fs : Files E N) (path : List (Option N)) : Tree E → List (Found E N)
  | .node entry subs => subs.found fs (path ++ [fs.name entry]) ++ [.entry entry (path ++ [fs.name entry])]
/-- The same for sub file entries; an error for each of those that cannot be opened. -/
def Forest.found (fs : Files E N) (path : List (Option N)) : Forest E → List (Found E N)
  | .nil => []
  | .opened t rest => t.found fs path ++ rest.found fs path
  | .lost rest => .error :: rest.found fs path
end

end Keramics.Spec
