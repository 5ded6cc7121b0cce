import Verif.Spec.Finder

/-!
# Model: the finder of the VFS

keramics-vfs/src/finder/finder.rs. A file system is given by `Spec.Files`: the results of `get_root_file_entry`,
`get_number_of_sub_file_entries`, `get_name` and `get_sub_file_entry_by_index`; that the last of these may fill caches of the file
entry has no effect on the results of later calls.
-/

namespace Keramics.Finder
open Spec (Files Found)

/-- `VfsFinderState`, finder.rs:21-30. -/
structure Frame (E : Type) where
  entry : E
  number : Nat
  index : Nat

/-- `VfsFinder`, finder.rs:44-56. The last state is the first of the list. `VfsString::Empty` is none. -/
structure Finder (E N : Type) where
  path : List (Option N)
  states : List (Frame E)
  started : Bool

variable {E N : Type}

/-- `VfsFinder::new`, finder.rs:62-69. -/
def new : Finder E N := ⟨[], [], false⟩

/-- A turn of the loop: the search has ended, gives something, or goes on. -/
inductive Turn (E N : Type)
  | ended
  | gives (found : Found E N) (f : Finder E N)
  | goes (f : Finder E N)

/-- A file entry is searched, finder.rs:83-94 and 118-130. -/
def enter (fs : Files E N) (f : Finder E N) (e : E) : R (Turn E N) :=
  match fs.number e with
  | .ok n => .ok (.goes { f with path := f.path ++ [fs.name e], states := ⟨e, n, 0⟩ :: f.states })
  | .err => .ok (.gives .error f)
  | .panic => .panic

/-- The sub file entry of a state, finder.rs:108-142. -/
def descend (fs : Files E N) (f : Finder E N) (s : Frame E) (rest : List (Frame E)) : R (Turn E N) :=
  match fs.sub s.entry s.index with
  | .ok e => enter fs { f with states := { s with index := s.index + 1 } :: rest } e
  | .err => .ok (.gives .error { f with states := { s with index := s.index + 1 } :: rest })
  | .panic => .panic

/-- A turn of the loop, finder.rs:100-143. -/
def turn (fs : Files E N) (f : Finder E N) : R (Turn E N) :=
  match f.states with
  | [] => .ok .ended
  | s :: rest =>
    if s.index ≥ s.number then .ok (.gives (.entry s.entry f.path) { f with path := f.path.dropLast, states := rest })
    else descend fs f s rest

/-- The loop, finder.rs:100-144; it never returns when the fuel runs out. -/
def loop (fs : Files E N) : Nat → Finder E N → R (Option (Found E N) × Finder E N)
  | 0, _ => .panic
  | fuel + 1, f =>
    match turn fs f with
    | .ok .ended => .ok (none, f)
    | .ok (.gives x f) => .ok (some x, f)
    | .ok (.goes f) => loop fs fuel f
    | .err => .err
    | .panic => .panic

/-- The root file entry, finder.rs:78-98. -/
def start (fs : Files E N) (f : Finder E N) : R (Turn E N) :=
  match fs.root with
  | .ok (some e) => enter fs f e
  | .ok none => .ok .ended
  | .err => .ok (.gives .error f)
  | .panic => .panic

/-- `next`, finder.rs:76-145. -/
def next (fs : Files E N) (fuel : Nat) (f : Finder E N) : R (Option (Found E N) × Finder E N) :=
  if f.started then loop fs fuel f
  else match start fs { f with started := true } with
    | .ok .ended => .ok (none, { f with started := true })
    | .ok (.gives x f) => .ok (some x, f)
    | .ok (.goes f) => loop fs fuel f
    | .err => .err
    | .panic => .panic

/-- What a number of calls of `next` give. -/
def calls (fs : Files E N) (fuel : Nat) : Nat → Finder E N → R (List (Option (Found E N)))
  | 0, _ => .ok []
  | k + 1, f => do
    let (x, f) ← next fs fuel f
    let xs ← calls fs fuel k f
    return x :: xs

end Keramics.Finder
