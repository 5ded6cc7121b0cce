import Verif.Model.Types
import Verif.Base.Bits

/-!
# Model: FAT directory entries
-/

namespace Keramics.FatDir

/-- `FatDirectoryEntryType`, fat/directory_entry_type.rs:15-27. -/
inductive EntryType where
  | longName | shortName | terminator | unallocated
deriving DecidableEq, Repr

/-- `FatDirectoryEntryType::read_data`, directory_entry_type.rs:31-44. -/
def entryType (data : List Byte) : R EntryType := do
  let first ← R.get data 0
  if first = 0xe5#8 then return .unallocated
  let flags ← R.slice data 11 13
  let cluster ← R.slice data 26 28
  if flags = [0x0f#8, 0x00#8] ∧ cluster = [0x00#8, 0x00#8] ∧
      ((0x01 ≤ first.toNat ∧ first.toNat ≤ 0x13) ∨ (0x41 ≤ first.toNat ∧ first.toNat ≤ 0x54)) then return .longName
  let all ← R.slice data 0 32
  if all = List.replicate 32 0#8 then return .terminator
  return .shortName

/-- `FatLongNameDirectoryEntry`, long_name_directory_entry.rs:33-39. -/
structure LongEntry where
  sequence : Nat
  name : List Nat
deriving DecidableEq, Repr

/-- long_name_directory_entry.rs:61-63 and 64-66: a further segment is read if the ones before are
full or if it does not start with `ffff`. -/
def moreName (name : List Nat) (full : Nat) (data : List Byte) (a b : Nat) : R (List Nat) := do
  let head ← R.slice data a (a + 2)
  if name.length = full ∨ head ≠ [0xff#8, 0xff#8] then Ucs2.readDataLe name (← R.slice data a b) else return name

/-- `FatLongNameDirectoryEntry::read_data`, long_name_directory_entry.rs:51-68. The code evaluates the
comparison with `ffff` only if the length differs; both are total on 32 bytes. -/
def readLong (data : List Byte) : R LongEntry := do
  R.require (32 ≤ data.length)
  let sequence ← R.get data 0
  let name ← Ucs2.readDataLe [] (← R.slice data 1 11)
  let name ← moreName name 5 data 14 26
  let name ← moreName name 11 data 28 32
  return ⟨sequence.toNat, name⟩

/-- `FatShortNameDirectoryEntry`, short_name_directory_entry.rs:41-65, without the times. -/
structure ShortEntry where
  name : List Byte
  attributes : Byte
  flags : Byte
  startCluster : Nat
  size : Nat
deriving DecidableEq, Repr

/-- short_name_directory_entry.rs:92-95, 108-111: without trailing spaces, unless there are only spaces. -/
def trim (field : List Byte) : List Byte :=
  match field.reverse.findIdx? (· ≠ 0x20#8) with
  | some i => field.take (field.length - i)
  | none => field

/-- short_name_directory_entry.rs:96-102, 112-118. -/
def lowerIf (c : Bool) (field : List Byte) : List Byte :=
  field.map fun b => if c ∧ 0x41 ≤ b.toNat ∧ b.toNat ≤ 0x5a then b + 32#8 else b

/-- short_name_directory_entry.rs:103-119 -/
def extension (attributes flags : Byte) (ext : List Byte) : List Byte :=
  if ext.head? ≠ some 0#8 ∧ ext.head? ≠ some 0x20#8 then
    (if attributes &&& 0x58#8 ≠ 0x08#8 then [0x2e#8] else []) ++ lowerIf (flags &&& 0x10#8 ≠ 0) (trim ext)
  else []

/-- `FatShortNameDirectoryEntry::read_data`, short_name_directory_entry.rs:83-128, without the times (for
these see `Keramics.DateTime`). -/
def readShort (data : List Byte) : R ShortEntry := do
  R.require (32 ≤ data.length)
  let attributes ← R.get data 11
  let flags ← R.get data 12
  let base ← R.slice data 0 8
  let ext ← R.slice data 8 11
  let cluster ← u16le data 26
  let size ← u32le data 28
  return ⟨lowerIf (flags &&& 0x08#8 ≠ 0) (trim base) ++ extension attributes flags ext, attributes, flags, cluster, size⟩

/-- `FatDirectoryEntry`, directory_entry.rs:24-33. -/
structure Entry where
  identifier : Nat
  short : ShortEntry
  long : Option (List Nat)
deriving DecidableEq, Repr

/-- `set_long_name`, directory_entry.rs:68-81: the name; the caller clears the list. -/
def longName (longs : List LongEntry) : Option (List Nat) :=
  if longs = [] then none else some (longs.reverse.flatMap LongEntry.name)

/-- `get_lookup_name`, directory_entry.rs:46-65. -/
def lookupName (fold : Nat → Option Nat) (e : Entry) : List Nat := match e.long with
  | some name => Ucs2.caseFold fold name
  | none => e.short.name.map fun b => if 0x61 ≤ b.toNat ∧ b.toNat ≤ 0x7a then b.toNat - 32 else b.toNat

/-- The state of reading directory entries: `FatDirectoryEntries` and the two variables passed by
reference. The `BTreeMap` is a list of pairs with one pair per key; its order is not modelled. -/
structure State where
  last : Nat
  longs : List LongEntry
  entries : List (List Nat × Entry)
  label : Option (List Byte)

/-- `BTreeMap::insert`: an entry with an equal key is replaced. -/
def insert (entries : List (List Nat × Entry)) (key : List Nat) (e : Entry) : List (List Nat × Entry) :=
  entries.filter (·.1 ≠ key) ++ [(key, e)]

/-- `get_entry_by_name`, directory_entries.rs:69-84, for a lookup name. -/
def find (st : State) (key : List Nat) : Option Entry := (st.entries.find? (·.1 = key)).map Prod.snd

/-- The long name arm, directory_entries.rs:127-160. -/
def stepLong (st : State) (data : List Byte) : R State := do
  let entry ← readLong data
  let number := entry.sequence &&& 0x1f
  let next ← R.addU 8 number 1
  if entry.sequence &&& 0x40 ≠ 0 then return { st with longs := [entry], last := number }
  else if next ≠ st.last then .err
  else return { st with longs := st.longs ++ [entry], last := number }

/-- The short name arm, directory_entries.rs:161-196. -/
def stepShort (fold : Nat → Option Nat) (offset : Nat) (st : State) (data : List Byte) : R State := do
  let entry ← readShort data
  if entry.attributes &&& 0x58#8 = 0x08#8 then return { st with label := some entry.name }
  else if entry.name = [0x2e#8] ∨ entry.name = [0x2e#8, 0x2e#8] then return st
  else
    let e : Entry := ⟨offset % 2 ^ 32, entry, longName st.longs⟩
    return { st with longs := [], entries := insert st.entries (lookupName fold e) e }

/-- `FatDirectoryEntries::read_data`, directory_entries.rs:97-210, on the data from `data_offset` on. -/
def readData (fold : Nat → Option Nat) (offset : Nat) (st : State) (data : List Byte) : R State :=
  if _h : data.length = 0 then .ok st
  else if _h' : data.length < 32 then .err
  else do
    match ← entryType data with
    | .longName =>
      let st ← stepLong st (data.take 32)
      let offset ← R.addU 64 offset 32
      readData fold offset st (data.drop 32)
    | .shortName =>
      let st ← stepShort fold offset st (data.take 32)
      let offset ← R.addU 64 offset 32
      readData fold offset st (data.drop 32)
    | .terminator => .ok st
    | .unallocated =>
      let offset ← R.addU 64 offset 32
      readData fold offset st (data.drop 32)
termination_by data.length
decreasing_by all_goals (rw [List.length_drop]; omega)

/-- The state before the first entry, directory_entries.rs:50-58, 225-226, 313-314. -/
def init : State := ⟨0, [], [], none⟩

end Keramics.FatDir
