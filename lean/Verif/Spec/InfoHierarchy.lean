import Verif.Spec.InfoTool
import Verif.Spec.ExtFileSystem
import Verif.Spec.NtfsFileSystem

/-!
# Specification: the hierarchy of a file system
-/

namespace Keramics.Spec

/-- The text of a path from the root directory, of the texts of its names. -/
def rootedText (names : List (List Nat)) : List Nat :=
  if names = [] then codePoints "/" else names.flatMap fun name => codePoints "/" ++ name

namespace ExtFs

/-- The paths below a file, if there are at most `depth` levels: for each entry of a directory, in the order of the names, its own path and
those below it. No entry is the root directory. -/
def Below (U : List Byte) : Nat → Nat → List (List (List Byte)) → Prop
  | 0, _, _ => False
  | depth + 1, n, paths => Readable U n ∧ ((kind (inode U n) ≠ 4 ∧ paths = []) ∨
      ∃ (records : List Record) (l : List (List Byte × Nat × List (List (List Byte)))), Directory U (inode U n) records ∧
        l.Pairwise (fun a b => a.1 < b.1) ∧ (∀ name m, (∃ below, (name, m, below) ∈ l) ↔ lookup records name = some m) ∧
        (∀ x ∈ l, x.2.1 ≠ 2 ∧ Below U depth x.2.1 x.2.2) ∧
        paths = l.flatMap fun x => [x.1] :: x.2.2.map fun names => x.1 :: names)

end ExtFs

namespace NtfsFs

/-- The data streams of a file and below it, if there are at most `depth` levels: the names from the file on and the name of the stream. -/
def BelowStreams (U : List Byte) (V : Volume) : Nat → Nat → List (List (List Nat) × Option (List Nat)) → Prop
  | 0, _, _ => False
  | depth + 1, n, streams => ∃ as below, IsFile U V.mft n as ∧ streams = ((streamNames as).map fun s => ([], s)) ++ below ∧
      ((NotDirectory as ∧ below = []) ∨
        ∃ (fold : List Nat → List Nat) (es : List DirectoryEntry) (l : List (DirectoryEntry × List (List (List Nat) × Option (List Nat)))),
          IsDirectory U V.upper as fold es ∧ DosNames es ∧ l.map Prod.fst = listed es ∧
          (∀ x ∈ l, x.1.reference % 2 ^ 48 ≠ 5 ∧ BelowStreams U V depth (x.1.reference % 2 ^ 48) x.2) ∧
          below = l.flatMap fun x => x.2.map fun s => (x.1.name :: s.1, s.2))

end NtfsFs

/-- The names of a stream and of its file have no surrogates. -/
def Plain (s : List (List Nat) × Option (List Nat)) : Prop :=
  (∀ name ∈ s.1, ∀ c ∈ name, Utf8.isScalar c) ∧ ∀ name, s.2 = some name → ∀ c ∈ name, Utf8.isScalar c

/-- The line of a data stream. -/
def streamText (s : List (List Nat) × Option (List Nat)) : List Nat :=
  rootedText (s.1.map doubled) ++ match s.2 with
    | some name => codePoints ":" ++ doubled name
    | none => []

end Keramics.Spec
