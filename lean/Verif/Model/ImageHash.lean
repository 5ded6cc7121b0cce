import Verif.Model.HashTool
import Verif.Model.Sigscan
import Verif.Model.SparseImage
import Verif.Model.Udif
import Verif.Model.EwfInfo

/-!
# Model: the hash command of the image tool

keramics-tools/src/image_tool.rs, the command that calculates the MD5 of a storage media image and shows the hashes that are stored in
it. Error messages, the progress bar and the arguments are left out.
-/

namespace Keramics.ImageHash
open HashTool (Out after printed)
open Sigscan (Format Scanner signaturesOf scanFormats)
open Spec (codePoints)

/-- The formats of `scan_for_storage_image_formats`, image_tool.rs:1034-1040. -/
def imageFormats : List Format := [.ewf, .qcow, .sparseImage, .udif, .vhd, .vhdx]

/-- All format identifiers, keramics-formats/src/enums.rs. -/
def allFormats : List Format := [.apm, .ext, .ewf, .fat, .gpt, .mbr, .ntfs, .qcow, .sparseImage, .udif, .unknown, .vhd, .vhdx]

open Classical in
/-- `scan_for_storage_image_formats`, image_tool.rs:1029-1072: the format of the set of results, none if it is empty. The order of a set
does not matter as it has one element. -/
noncomputable def scanImages (data : List Byte) : R (Option Format) := do
  let scanner ← Scanner.build 64 (imageFormats.flatMap signaturesOf)
  let found ← scanFormats scanner data
  let results := allFormats.filter fun f => decide (found f)
  if results.length > 1 then .err else .ok results.head?

/-- What is outside of the tool: the source file, the segment files next to it, the property lists and the decompression that the
formats use, and `open` of the images with layers (`QcowImage`, `VhdImage`, `VhdxImage`). -/
structure World where
  source : List Byte
  segments : Nat → Option (List Byte)
  unzip : List Byte → Nat → R (List Byte)
  plist : List Byte → R (List (List Byte))
  decompress : Nat → List Byte → Nat → R (List Byte)
  layers : Format → R Unit

/-- `StorageMediaImage`, image_tool.rs:94-101, after `open`: what is read from and the position. -/
inductive Media
  | ewf (image : EwfImage.State) (info : EwfInfo.Info) (s : Stream EwfImage.Caches)
  | layers
  | sparseImage (image : SparseImage.Image) (s : Stream Unit)
  | udif (image : Udif.Image) (s : Stream Udif.Cache)
  | udifFork (image : Udif.Image) (s : Stream Unit)

/-- What is made for a format and opened, image_tool.rs:1162-1188 and 161-365. -/
def openMedia (w : World) : Format → R Media
  | .ewf => do
    let (image, info, cache) ← EwfInfo.openImage w.segments
    return .ewf image info ⟨EwfImage.caches cache, 0⟩
  | .qcow => do
    w.layers .qcow
    return .layers
  | .sparseImage => do
    let image ← SparseImage.openImage w.source
    return .sparseImage image ⟨(), 0⟩
  | .udif => do
    let image ← Udif.openImage w.plist w.source
    if image.hasRanges then return .udif image ⟨Udif.newCache, 0⟩ else return .udifFork image ⟨(), 0⟩
  | .vhd => do
    w.layers .vhd
    return .layers
  | .vhdx => do
    w.layers .vhdx
    return .layers
  | _ => .err

/-- `get_media_size`, image_tool.rs:139-149; for images with layers `todo!()`. -/
def mediaSize : Media → R Nat
  | .ewf image _ _ => .ok image.mediaSize
  | .layers => .panic
  | .sparseImage image _ => .ok image.mediaSize
  | .udif image _ => .ok image.mediaSize
  | .udifFork image _ => .ok image.mediaSize

/-- `read`, image_tool.rs:380-390; for images with layers `todo!()`. -/
def read (w : World) : Media → Nat → R (List Byte × Media)
  | .ewf image info s, n => do
    let (out, s) ← s.read (EwfImage.stream w.unzip image) n
    return (out, .ewf image info s)
  | .layers, _ => .panic
  | .sparseImage image s, n => do
    let (out, s) ← s.read (SparseImage.stream w.source image) n
    return (out, .sparseImage image s)
  | .udif image s, n => do
    let (out, s) ← s.read (Udif.stream w.decompress w.source image) n
    return (out, .udif image s)
  | .udifFork image s, n => do
    let (out, s) ← s.read (Udif.forkStream w.source image) n
    return (out, .udifFork image s)

/-- `get_md5_hash`, image_tool.rs:130-135. -/
def md5Hash : Media → Option (List Byte)
  | .ewf _ info _ => some info.md5
  | _ => none

/-- `get_sha1_hash`, image_tool.rs:152-157. -/
def sha1Hash : Media → Option (List Byte)
  | .ewf _ info _ => some info.sha1
  | _ => none

/-- A line with a hash, image_tool.rs:1249-1270. -/
def hashLine (label : String) (hash : List Byte) : List Nat := codePoints label ++ (Hasher.formatAsString hash).map Char.toNat

/-- The line of a stored hash, image_tool.rs:1252-1270. -/
def storedLine (label : String) (size : Nat) : Option (List Byte) → List (List Nat)
  | none => []
  | some hash => if hash ≠ List.replicate size 0#8 then [hashLine label hash] else []

/-- The lines, image_tool.rs:1244-1270. -/
def lines (media : Media) (md5 : List Byte) : List (List Nat) :=
  [[], hashLine "Calculated MD5 hash\t: " md5] ++ storedLine "Stored MD5 hash\t\t: " 16 (md5Hash media) ++
    storedLine "Stored SHA1 hash\t: " 20 (sha1Hash media)

/-- `main` for the hash command, image_tool.rs:1134-1273; the loop is that of `DigestHasher`. What is opened stays as it was for the stored
hashes. -/
noncomputable def hashCommand (w : World) (fuel : Nat) : Out :=
  after (scanImages w.source) fun found =>
  match found with
  | none => ([], .err)
  | some format =>
    after (openMedia w format) fun media =>
    after (mediaSize media) fun _ =>
    after (Hasher.loop Digest.md5 (read w) fuel (Digest.Ctx.new Digest.md5) media) fun md5 =>
    (lines media md5, .ok ())

end Keramics.ImageHash
