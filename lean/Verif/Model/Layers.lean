import Verif.Model.Vhd
import Verif.Model.VhdxOpen
import Verif.Model.Qcow
import Verif.Model.Vfs
import Verif.Model.Types

/-!
# Model: opening images with layers

keramics-formats/src/vhd/image.rs, vhdx/image.rs and qcow/image.rs. The file resolver is a function from the name of a file to its bytes: names
are text, as `PathComponent::from(&String)` keeps them. A file that was read is its bytes: what was read from it is computed again where it is
needed. The image that is opened is new, without layers. Locks are left out, as is the debug output.
-/

namespace Keramics.Layers

/-- What differs between the formats: `read_data_stream`; the name of the parent or backing file, if there is one, with the condition of
the loop; and `set_parent` or `set_backing_file` of a file with its parent. -/
structure Kind where
  read : List Byte → R Unit
  next : List Byte → R (Option (List Nat))
  setParent : List Byte → List Byte → R Unit

/-- A layer: the file, and the index of the layer that is its `parent_file` or `backing_file`. -/
structure Layer where
  file : List Byte
  parent : Option Nat
deriving DecidableEq

/-- The file with a name, vhd/image.rs:61-92 and 100-129, vhdx/image.rs:61-92 and 100-129, qcow/image.rs:59-90 and 94-121. -/
def readFile (k : Kind) (resolve : List Nat → R (Option (List Byte))) (name : List Nat) : R (List Byte) := do
  match ← resolve name with
  | none => .err
  | some file => do
    k.read file
    return file

/-- The loop over the parents, vhd/image.rs:93-135, vhdx/image.rs:93-135, qcow/image.rs:91-126: the vector `files`. `fuel` bounds the number
of iterations. -/
def chain (k : Kind) (resolve : List Nat → R (Option (List Byte))) : Nat → List Byte → List (List Byte) → R (List (List Byte))
  | 0, _, _ => .panic
  | fuel + 1, file, files => do
    match ← k.next file with
    | none => return files ++ [file]
    | some name => do
      let parent ← readFile k resolve name
      chain k resolve fuel parent (files ++ [file])

/-- The parent of the next layer, vhd/image.rs:138-147. -/
def linkParent (k : Kind) (file : List Byte) (layers : List Layer) : R (Option Nat) :=
  if layers.length > 0 then do
    let p ← R.get layers (layers.length - 1)
    k.setParent file p.file
    return some (layers.length - 1)
  else .ok none

/-- The second loop, vhd/image.rs:136-150, vhdx/image.rs:136-150, qcow/image.rs:127-141, over the files in the order in which they are popped. -/
def link (k : Kind) : List (List Byte) → List Layer → R (List Layer)
  | [], layers => .ok layers
  | file :: files, layers => do
    let parent ← linkParent k file layers
    link k files (layers ++ [⟨file, parent⟩])

/-- `open`, vhd/image.rs:56-152, vhdx/image.rs:56-152, qcow/image.rs:54-143. -/
def openImage (k : Kind) (resolve : List Nat → R (Option (List Byte))) (fuel : Nat) (name : List Nat) : R (List Layer) := do
  let file ← readFile k resolve name
  let files ← chain k resolve fuel file []
  link k files.reverse []

/-- `get_layer_by_index`, vhd/image.rs:42-50. -/
def layerByIndex (layers : List Layer) (i : Nat) : R Layer := match layers[i]? with
  | some layer => .ok layer
  | none => .err

/-- The identifier, and the identifier and the name of the parent. -/
structure Links where
  id : Uuid.Uuid
  parent : Option (Uuid.Uuid × List Nat)
deriving DecidableEq

/-- The parent of a dynamic disk, vhd/dynamic_disk_header.rs:103-104, vhd/file.rs:183-186. -/
def vhdParent (file : List Byte) (offset : Nat) : R (Option (Uuid.Uuid × List Nat)) := do
  let data ← readExactAt file offset 1024
  let id ← Uuid.fromBeBytes (← R.slice data 40 56)
  let name ← Ucs2.fromBeBytes (← R.slice data 64 576)
  return if Uuid.isNil id then none else some (id, name)

/-- The identifiers of a VHD file, vhd/file_footer.rs:98, vhd/file.rs:150-153. An identifier of zeros is kept as such. -/
def vhdLinks (file : List Byte) : R Links := do
  let footer ← Vhd.readFooter file
  let data ← readExactAt file (file.length - 512) 512
  let id ← Uuid.fromBeBytes (← R.slice data 68 84)
  if footer.diskType = .fixed then return ⟨id, none⟩
  else do
    let parent ← vhdParent file footer.nextOffset
    return ⟨id, parent⟩

/-- The name in the loop, vhd/image.rs:93-99, vhd/file.rs:93-111 (the code is that of vhdx/file.rs:110-128). -/
def nextName (parent : Option (Uuid.Uuid × Option (List Nat))) : R (Option (List Nat)) := match parent with
  | none => .ok none
  | some (_, name) => do
    match ← Vhdx.parentFileName name with
    | none => .err
    | some t => return some (Path.ucs2Text t)

/-- `set_parent`, vhd/file.rs:427-454, vhdx/file.rs:807-834. -/
def checkParent (parent : Option Uuid.Uuid) (id : Uuid.Uuid) : R Unit := match parent with
  | none => .err
  | some p => R.require (¬ p ≠ id)

/-- VHD -/
def vhd : Kind where
  read file := do
    let _ ← Vhd.openImage file
    let _ ← vhdLinks file
    return ()
  next file := do
    let l ← vhdLinks file
    nextName (l.parent.map fun p => (p.1, some p.2))
  setParent file parent := do
    let l ← vhdLinks file
    let p ← vhdLinks parent
    checkParent (l.parent.map Prod.fst) p.id

/-- VHDX -/
def vhdx : Kind where
  read file := do
    let _ ← Vhdx.openFile file
    return ()
  next file := do
    let v ← Vhdx.openFile file
    nextName (v.parentIdentifier.map fun p => (p, v.parentName))
  setParent file parent := do
    let v ← Vhdx.openFile file
    let p ← Vhdx.openFile parent
    checkParent v.parentIdentifier p.identifier

/-- `get_backing_file_name` with `to_string`, qcow/image.rs:91-92, qcow/file.rs:256-264 and 282-319. -/
def qcowName (file : List Byte) : R (Option (List Nat)) := do
  let h ← Qcow.readHeader file
  if 0 < h.nameOffset ∧ 0 < h.nameSize then do
    let data ← readExactAt file h.nameOffset h.nameSize
    let text ← Path.bytesText (ByteString.elements data)
    return some text
  else .ok none

/-- QCOW: nothing is checked of the backing file, qcow/file.rs:526-533. -/
def qcow : Kind where
  read file := do
    let _ ← Qcow.openImage file
    return ()
  next := qcowName
  setParent _ _ := .ok ()

end Keramics.Layers
