import Verif.Model.Adc
import Verif.Model.Bzip2
import Verif.Model.Lzfse
import Verif.Model.SparseBundle
import Verif.Model.Udif
import Verif.Model.XmlPlist
import Verif.Model.Zlib

/-!
# Model: property lists in disk images

What UDIF images and sparse bundles do with their property lists, from the bytes on.
-/

namespace Keramics.PlistFiles

open XmlPlist (Object)

/-- A byte that goes on with a character. -/
def goesOn (b : Byte) : Bool := 0x80 ≤ b.toNat ∧ b.toNat < 0xc0

/-- `String::from_utf8` (standard library): the characters, or none if the bytes are not well-formed UTF-8. -/
def fromUtf8 : List Byte → Option (List Char)
  | [] => some []
  | a :: rest =>
    if a.toNat < 0x80 then (fromUtf8 rest).map (Char.ofNat a.toNat :: ·)
    else match rest with
      | [] => none
      | b :: rest =>
        if goesOn b = false then none
        else if a.toNat < 0xe0 then
          let n := (a.toNat - 0xc0) * 64 + (b.toNat - 0x80)
          if 0xc2 ≤ a.toNat then (fromUtf8 rest).map (Char.ofNat n :: ·) else none
        else match rest with
          | [] => none
          | c :: rest =>
            if goesOn c = false then none
            else if a.toNat < 0xf0 then
              let n := (a.toNat - 0xe0) * 4096 + (b.toNat - 0x80) * 64 + (c.toNat - 0x80)
              if 0x800 ≤ n ∧ ¬ (0xd800 ≤ n ∧ n < 0xe000) then (fromUtf8 rest).map (Char.ofNat n :: ·) else none
            else match rest with
              | [] => none
              | d :: rest =>
                if goesOn d = false then none
                else
                  let n := (a.toNat - 0xf0) * 262144 + (b.toNat - 0x80) * 4096 + (c.toNat - 0x80) * 64 + (d.toNat - 0x80)
                  if 0x10000 ≤ n ∧ n ≤ 0x10ffff then (fromUtf8 rest).map (Char.ofNat n :: ·) else none

/-- `match … { Some(v) => v, None => return Err }`. -/
def get? {α : Type} : Option α → R α
  | some v => .ok v
  | none => .err

/-- The tables of the entries of the array, udif/file.rs:178-189. -/
def tablesOf : List Object → R (List (List Byte))
  | [] => .ok []
  | o :: rest => do
    let data ← get? (o.bytes "Data".toList)
    let tables ← tablesOf rest
    return data :: tables

/-- The data of the block tables in the property list, udif/file.rs:137-189. Simplification: each table is read before the data of the next is
looked for; here the data of all tables comes first. -/
def udifTables (f64 : List Char → Option (BitVec 64)) (data : List Byte) : R (List (List Byte)) := do
  let text ← get? (fromUtf8 data)
  let root ← XmlPlist.parse f64 text
  let fork ← get? (root.get "resource-fork".toList)
  let blkx ← get? (fork.vector "blkx".toList)
  tablesOf blkx

/-- What the getters return, sparsebundle/image.rs:128-184. -/
def infoOf (root : Object) : SparseBundle.Info :=
  ⟨(root.str "CFBundleInfoDictionaryVersion".toList).map String.ofList, (root.str "diskimage-bundle-type".toList).map String.ofList,
    root.int "band-size".toList, root.int "size".toList⟩

/-- `read_info_plist`, sparsebundle/image.rs:68-196, as `open` calls it, 44-66. -/
def openBundle (f64 : List Char → Option (BitVec 64)) (files : List (List Char) → Option (List Byte)) : R SparseBundle.Image := do
  let data ← get? (files ["Info.plist".toList])
  R.require (¬ (data.length = 0 ∨ data.length > 65536))
  let text ← get? (fromUtf8 data)
  let root ← XmlPlist.parse f64 text
  SparseBundle.openInfo (infoOf root)

/-- The buffer of a decompressor, without the size. -/
def buffer (r : R (List Byte × Nat)) : R (List Byte) := do
  let (out, _) ← r
  return out

/-- The decompressors of `read_compressed_block`, udif/file.rs:459-533, into a buffer of zeros of the size of the range. -/
def udifDecompress (method : Nat) (data : List Byte) (size : Nat) : R (List Byte) :=
  let zeros := List.replicate size 0#8
  if method = 0x80000004 then buffer (Adc.decompress data zeros)
  else if method = 0x80000005 then buffer (Zlib.decompress data zeros)
  else if method = 0x80000006 then buffer (Bzip2.decompress data zeros)
  else if method = 0x80000007 then buffer (Lzfse.decompress data zeros)
  else if method = 0x80000008 then .panic
  else .err

end Keramics.PlistFiles
