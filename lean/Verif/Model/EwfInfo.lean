import Verif.Model.EwfImage
import Verif.Model.Zlib

/-!
# Model: what EWF images say about the acquisition

The values of the sections "header" and "header2", the hashes of the sections "digest" and "hash", the set identifier of the
sections "volume" and "data", and the sections "error2" and "table2", which are only checked. Debug output is left out.
-/

namespace Keramics.EwfInfo
open Keramics.EwfImage

/-- `EwfHeaderValueType`, ewf/enums.rs:14-33. `NotSet` is `none`. -/
inductive ValueType where
  | acquisitionDate | caseNumber | compressionLevel | description | deviceLabel | evidenceNumber | examinerName | model | notes
  | passwordHash | platform | processIdentifier | serialNumber | systemDate | version
deriving DecidableEq, Repr

/-- `EwfHeaderValue`, ewf/header_value.rs:18-22. The elements of a UTF-16 string are `Nat`. -/
inductive Value where
  | byte (bytes : List Byte)
  | posixTime (timestamp : Nat)
  | utf16 (elements : List Nat)
deriving DecidableEq, Repr

/-- `header_values`, ewf/image.rs:91: the hash map as a list of its entries. -/
abbrev Values := List (ValueType × Value)

/-- `HashMap::get`, and `get_header_value`, ewf/image.rs:126-128. -/
def Values.get (v : Values) (k : ValueType) : Option Value := List.lookup k v

/-- The loop of `next_line` from a position on, ewf/object_storage.rs:46-66: the last byte and the line before the position. The
line, if there is one, and the data behind it. -/
def byteLoop : List Byte → Byte → List Byte → Option (List Byte) × List Byte
  | [], _, line => (some line, [])
  | b :: rest, last, line =>
    if b = 0#8 then (none, rest)
    else if b = 0x0a#8 then (some (if last = 0x0d#8 then line.dropLast else line), rest)
    else byteLoop rest b (line ++ [b])

/-- `EwfByteObjectStorage::next_line`, ewf/object_storage.rs:41-67: the data from `data_offset` on is kept instead of the offset. -/
def byteLine (data : List Byte) : Option (List Byte) × List Byte := byteLoop data 0#8 []

/-- `bytes_to_u16_be!` or `bytes_to_u16_le!`, ewf/object_storage.rs:103-106. -/
def unit (big : Bool) (a b : Byte) : Nat := if big then beNat [a, b] else leNat [a, b]

/-- The loop of `next_line` from a position on, ewf/object_storage.rs:102-124. A single byte at the end is out of bounds. -/
def utf16Loop (big : Bool) : List Byte → Nat → List Nat → R (Option (List Nat) × List Byte)
  | [], _, line => .ok (some line, [])
  | [_], _, _ => .panic
  | a :: b :: rest, last, line =>
    if unit big a b = 0 then .ok (none, rest)
    else if unit big a b = 0x0a then .ok (some (if last = 0x0d then line.dropLast else line), rest)
    else utf16Loop big rest (unit big a b) (line ++ [unit big a b])

/-- `EwfUtf16ObjectStorage::next_line`, ewf/object_storage.rs:96-125. -/
def utf16Line (big : Bool) (data : List Byte) : R (Option (List Nat) × List Byte) := utf16Loop big data 0 []

/-- `EwfUtf16ObjectStorage::parse_date_value`, ewf/object_storage.rs:127-140, from a digit on. The timestamp is an `i32` that is
never negative. -/
def dateLoop : List Nat → Nat → R (Option Nat)
  | [], timestamp => .ok (some timestamp)
  | x :: rest, timestamp => do
    R.check (timestamp * 10 < 2 ^ 31)
    if x < 0x30 ∨ 0x39 < x then return none
    else do
      R.check (timestamp * 10 + (x - 0x30) < 2 ^ 31)
      dateLoop rest (timestamp * 10 + (x - 0x30))

/-- The standard library `split` of a slice at every separator. -/
def split {α : Type} [DecidableEq α] (separator : α) : List α → List (List α)
  | [] => [[]]
  | x :: rest =>
    if x = separator then [] :: split separator rest
    else match split separator rest with
      | [] => [[x]]
      | line :: lines => (x :: line) :: lines

/-- A line that has to be there: `None => return Err(..)`. -/
def needLine {α : Type} : Option α → R α
  | none => .err
  | some line => .ok line

/-- The value types of a header, ewf/header.rs:144-176. -/
def byteTypes : List (List Nat × ValueType) :=
  [([0x61], .description), ([0x61, 0x76], .version), ([0x63], .caseNumber), ([0x65], .examinerName), ([0x6c], .deviceLabel),
    ([0x6d], .acquisitionDate), ([0x6d, 0x64], .model), ([0x6e], .evidenceNumber), ([0x6f, 0x76], .platform), ([0x70], .passwordHash),
    ([0x70, 0x69, 0x64], .processIdentifier), ([0x72], .compressionLevel), ([0x73, 0x6e], .serialNumber), ([0x74], .notes),
    ([0x75], .systemDate)]

/-- The value types of a header2, ewf/header2.rs:155-187. -/
def utf16Types : List (List Nat × ValueType) :=
  [([0x61], .description), ([0x61, 0x76], .version), ([0x63], .caseNumber), ([0x65], .examinerName), ([0x6c], .deviceLabel),
    ([0x6d], .acquisitionDate), ([0x6d, 0x64], .model), ([0x6e], .evidenceNumber), ([0x6f, 0x76], .platform), ([0x70], .passwordHash),
    ([0x70, 0x69, 0x64], .processIdentifier), ([0x72], .compressionLevel), ([0x73, 0x6e], .serialNumber), ([0x77], .notes),
    ([0x75], .systemDate)]

/-- One value of a header, ewf/header.rs:144-182. -/
def addByte (tag value : List Byte) (v : Values) : Values :=
  match byteTypes.lookup (tag.map BitVec.toNat) with
  | none => v
  | some k => if (v.get k).isSome then v else v ++ [(k, .byte value)]

/-- The loop over the values, ewf/header.rs:143-183. -/
def addBytes : List (List Byte × List Byte) → Values → Values
  | [], v => v
  | (tag, value) :: rest, v => addBytes rest (addByte tag value v)

/-- The text of a header, ewf/header.rs:67-184. -/
def readHeaderText (data : List Byte) (v : Values) : R Values := do
  let categories ← needLine (byteLine data).1
  R.require (categories = [0x31#8] ∨ categories = [0x33#8])
  let data := (byteLine data).2
  let category ← needLine (byteLine data).1
  R.require (category = [0x6d#8, 0x61#8, 0x69#8, 0x6e#8])
  let data := (byteLine data).2
  let types ← needLine (byteLine data).1
  let data := (byteLine data).2
  let values ← needLine (byteLine data).1
  R.require ((split 9#8 values).length = (split 9#8 types).length)
  return addBytes ((split 9#8 types).zip (split 9#8 values)) v

/-- `EwfHeader::read_data`, ewf/header.rs:40-185. -/
def readHeaderData (data : List Byte) (v : Values) : R Values := do
  let (text, _) ← Zlib.decompress data (List.replicate (data.length * 4) 0#8)
  readHeaderText text v

/-- `EwfHeader::read_at_position`, ewf/header.rs:188-212. -/
def readHeader (file : List Byte) (position size : Nat) (v : Values) : R Values := do
  R.require (2 ≤ size ∧ size ≤ 16777216)
  let data ← readExactAt file position size
  readHeaderData data v

/-- The value of a header2, ewf/header2.rs:191-201: `none` to continue with the next one. -/
def utf16Value (k : ValueType) (value : List Nat) : R (Option Value) :=
  if k = .acquisitionDate ∨ k = .systemDate then do return (← dateLoop value 0).map .posixTime
  else .ok (some (.utf16 value))

/-- The values with another one: ewf/header2.rs:202. -/
def insertValue (k : ValueType) (v : Values) : Option Value → Values
  | none => v
  | some x => v ++ [(k, x)]

/-- One value of a header2, ewf/header2.rs:155-203. -/
def addUtf16 (tag value : List Nat) (v : Values) : R Values :=
  match utf16Types.lookup tag with
  | none => .ok v
  | some k => if (v.get k).isSome then .ok v else do return insertValue k v (← utf16Value k value)

/-- The loop over the values, ewf/header2.rs:154-204. -/
def addUtf16s : List (List Nat × List Nat) → Values → R Values
  | [], v => .ok v
  | (tag, value) :: rest, v => do
    let v ← addUtf16 tag value v
    addUtf16s rest v

/-- The byte order of a header2 and the text behind the byte order mark, ewf/header2.rs:68-84. -/
def byteOrder (data : List Byte) : R (Bool × List Byte) := do
  let mark ← R.slice data 0 2
  return if mark = [0xfe#8, 0xff#8] then (true, data.drop 2) else if mark = [0xff#8, 0xfe#8] then (false, data.drop 2) else (false, data)

/-- The text of a header2, ewf/header2.rs:85-205. -/
def readHeader2Text (big : Bool) (data : List Byte) (v : Values) : R Values := do
  let (line, data) ← utf16Line big data
  let categories ← needLine line
  R.require (categories = [0x31] ∨ categories = [0x33])
  let (line, data) ← utf16Line big data
  let category ← needLine line
  R.require (category = [0x6d, 0x61, 0x69, 0x6e])
  let (line, data) ← utf16Line big data
  let types ← needLine line
  let (line, _) ← utf16Line big data
  let values ← needLine line
  R.require ((split 9 values).length = (split 9 types).length)
  addUtf16s ((split 9 types).zip (split 9 values)) v

/-- `EwfHeader2::read_data`, ewf/header2.rs:41-206. -/
def readHeader2Data (data : List Byte) (v : Values) : R Values := do
  let (text, _) ← Zlib.decompress data (List.replicate (data.length * 4) 0#8)
  let (big, text) ← byteOrder text
  readHeader2Text big text v

/-- `EwfHeader2::read_at_position`, ewf/header2.rs:209-233. -/
def readHeader2 (file : List Byte) (position size : Nat) (v : Values) : R Values := do
  R.require (2 ≤ size ∧ size ≤ 16777216)
  let data ← readExactAt file position size
  readHeader2Data data v

/-- `EwfDigest`, ewf/digest.rs:50-71: the MD5 and the SHA1. -/
def readDigest (file : List Byte) (position : Nat) : R (List Byte × List Byte) := do
  let data ← readExactAt file position 80
  let stored ← u32le data 76
  let calculated ← checksum (← R.slice data 0 76)
  R.require (stored = calculated)
  let md5 ← R.slice data 0 16
  let sha1 ← R.slice data 16 36
  return (md5, sha1)

/-- `EwfHash`, ewf/hash.rs:43-64: the MD5. -/
def readHash (file : List Byte) (position : Nat) : R (List Byte) := do
  let data ← readExactAt file position 36
  let stored ← u32le data 32
  let calculated ← checksum (← R.slice data 0 32)
  R.require (stored = calculated)
  R.slice data 0 16

/-- The loop over the entries, ewf/error2.rs:88-111, and error2_entry.rs:46-57, with the number of entries left. -/
def readErrors (data : List Byte) : Nat → Nat → R (List (Nat × Nat))
  | 0, _ => .ok []
  | n + 1, offset => do
    let entry ← R.slice data offset (offset + 8)
    let start ← u32le entry 0
    let sectors ← u32le entry 4
    let rest ← readErrors data n (offset + 8)
    return (start, sectors) :: rest

/-- `EwfError2::read_at_position`, ewf/error2.rs:43-142, error2_header.rs:44-67 and error2_footer.rs:39-48. -/
def readError2 (file : List Byte) (position size : Nat) : R (List (Nat × Nat)) := do
  R.require (28 ≤ size ∧ size ≤ 16777216)
  let data ← readExactAt file position size
  R.require (520 ≤ data.length)
  let stored ← u32le data 516
  let calculated ← checksum (← R.slice data 0 516)
  R.require (stored = calculated)
  let number ← u32le data 0
  let footer ← R.slice data (520 + number * 8) (520 + number * 8 + 4)
  let stored ← u32le footer 0
  let calculated ← checksum (← R.slice data 520 (520 + number * 8))
  R.require (stored = calculated)
  readErrors data number 520

/-- `EwfMediaType`, ewf/enums.rs:35-44. -/
inductive MediaType where
  | fixedDisk | logicalEvidence | memory | opticalDisk | removeableDisk | unknown
deriving DecidableEq, Repr

/-- The media type of a volume, ewf/image.rs:898-905. -/
def mediaType (x : Nat) : MediaType :=
  if x = 0 then .removeableDisk else if x = 1 then .fixedDisk else if x = 3 then .opticalDisk else if x = 0x0e then .logicalEvidence
  else if x = 0x10 then .memory else .unknown

/-- The fields of `EwfImage` that do not describe chunks, ewf/image.rs:44-98. The set identifier is kept as its 16 bytes. -/
structure Info where
  values : Values
  md5 : List Byte
  sha1 : List Byte
  setIdentifier : List Byte
  mediaType : MediaType
  errorGranularity : Nat
deriving DecidableEq, Repr

/-- `EwfImage::new`, ewf/image.rs:102-123. -/
def Info.new : Info := ⟨[], List.replicate 16 0#8, List.replicate 20 0#8, List.replicate 16 0#8, .unknown, 0⟩

/-- `EwfE01Volume::read_data`, ewf/volume.rs:96-125: the media type, the error granularity and the set identifier. -/
def readE01 (file : List Byte) (position : Nat) : R (Nat × Nat × List Byte) := do
  let data ← readExactAt file position 1052
  let stored ← u32le data 1048
  let calculated ← checksum (← R.slice data 0 1048)
  R.require (stored = calculated)
  let media ← R.get data 0
  let granularity ← u32le data 56
  let identifier ← R.slice data 64 80
  return (media.toNat, granularity, identifier)

/-- The fields that a volume section sets, ewf/image.rs:887-913. -/
def volumeInfo (file : List Byte) (position size : Nat) (info : Info) : R Info :=
  if size = 1128 then do
    let (media, granularity, identifier) ← readE01 file position
    return { info with mediaType := mediaType media, errorGranularity := granularity, setIdentifier := identifier }
  else .ok info

/-- ewf/constants.rs:19-21, 24-26, 39-41, 44-46, 49-51, 54-56 and 79-81. -/
def kindData : List Byte := [0x64#8, 0x61#8, 0x74#8, 0x61#8, 0#8, 0#8, 0#8, 0#8, 0#8, 0#8, 0#8, 0#8, 0#8, 0#8, 0#8, 0#8]
def kindDigest : List Byte := [0x64#8, 0x69#8, 0x67#8, 0x65#8, 0x73#8, 0x74#8, 0#8, 0#8, 0#8, 0#8, 0#8, 0#8, 0#8, 0#8, 0#8, 0#8]
def kindError2 : List Byte := [0x65#8, 0x72#8, 0x72#8, 0x6f#8, 0x72#8, 0x73#8, 0x32#8, 0#8, 0#8, 0#8, 0#8, 0#8, 0#8, 0#8, 0#8, 0#8]
def kindHash : List Byte := [0x68#8, 0x61#8, 0x73#8, 0x68#8, 0#8, 0#8, 0#8, 0#8, 0#8, 0#8, 0#8, 0#8, 0#8, 0#8, 0#8, 0#8]
def kindHeader : List Byte := [0x68#8, 0x65#8, 0x61#8, 0x64#8, 0x65#8, 0x72#8, 0#8, 0#8, 0#8, 0#8, 0#8, 0#8, 0#8, 0#8, 0#8, 0#8]
def kindHeader2 : List Byte := [0x68#8, 0x65#8, 0x61#8, 0x64#8, 0x65#8, 0x72#8, 0x32#8, 0#8, 0#8, 0#8, 0#8, 0#8, 0#8, 0#8, 0#8, 0#8]
def kindTable2 : List Byte := [0x74#8, 0x61#8, 0x62#8, 0x6c#8, 0x65#8, 0x32#8, 0#8, 0#8, 0#8, 0#8, 0#8, 0#8, 0#8, 0#8, 0#8, 0#8]

/-- What one section sets, ewf/image.rs:365-558, besides what `EwfImage.sectionStep` has. -/
def infoStep (segment : Nat) (file : List Byte) (offset : Nat) (s : Section) (info : Info) : R Info :=
  if s.kind = kindData then do
    let position ← R.addU 64 offset 76
    let (_, _, identifier) ← readE01 file position
    R.require (info.setIdentifier = identifier)
    return info
  else if s.kind = kindDigest then do
    let position ← R.addU 64 offset 76
    let (md5, sha1) ← readDigest file position
    return { info with md5 := md5, sha1 := sha1 }
  else if s.kind = kindDisk ∨ s.kind = kindVolume then do
    let position ← R.addU 64 offset 76
    volumeInfo file position s.size info
  else if s.kind = kindError2 then do
    let size ← R.subU s.size 76
    let position ← R.addU 64 offset 76
    let _ ← readError2 file position size
    return info
  else if s.kind = kindHash then do
    let position ← R.addU 64 offset 76
    let md5 ← readHash file position
    return { info with md5 := md5 }
  else if s.kind = kindHeader then do
    R.require (segment = 1)
    let size ← R.subU s.size 76
    let position ← R.addU 64 offset 76
    let values ← readHeader file position size info.values
    return { info with values := values }
  else if s.kind = kindHeader2 then do
    R.require (segment = 1)
    let size ← R.subU s.size 76
    let position ← R.addU 64 offset 76
    let values ← readHeader2 file position size info.values
    return { info with values := values }
  else if s.kind = kindTable2 then do
    let size ← R.subU s.size 76
    let position ← R.addU 64 offset 76
    let _ ← readTable file position size
    return info
  else .ok info

/-- Nothing is left to be read by a parameter. -/
def nothing (_ _ : Nat) (_ : Section) : R Unit := .ok ()

/-- `read_sections`, ewf/image.rs:352-562, with all sections. Every section sets either what describes chunks or the other fields;
a volume section sets both, the chunks at the end. -/
def runSections (segment : Nat) (file : List Byte) : List Section → Nat → Option Nat → State → Info → R (State × Info)
  | [], _, _, state, info => .ok (state, info)
  | s :: rest, offset, sectors, state, info => do
    let (state, sectors) ← sectionStep nothing segment file offset sectors s state
    let info ← infoStep segment file offset s info
    let offset ← R.addU 64 offset s.size
    runSections segment file rest offset sectors state info

/-- One segment, ewf/image.rs:640-671. -/
def readSegment (k : Nat) (file : List Byte) (state : State) (info : Info) (cache : Files) : R (State × Info × Files) := do
  let (number, sections) ← readFile file
  R.require (number = k)
  let (state, info) ← runSections k file sections 13 none state info
  let cache ← cache.insert k (some file)
  return (state, info, cache)

/-- The loop over the segments, ewf/image.rs:605-674. The fuel bounds the number of iterations. -/
def segmentsLoop (files : Nat → Option (List Byte)) : Nat → Nat → State → Info → Files → R (State × Info × Files)
  | 0, _, _, _, _ => .panic
  | n + 1, k, state, info, cache =>
    if state.last then .ok (state, info, cache)
    else match files k with
      | none => .err
      | some file => do
        let (state, info, cache) ← readSegment k file state info cache
        let k ← R.addU 16 k 1
        segmentsLoop files n k state info cache

/-- `open` and `read_segment_files`, ewf/image.rs:186-201 and 565-676, with all sections. -/
def openImage (files : Nat → Option (List Byte)) : R (State × Info × Files) :=
  segmentsLoop files 65536 1 ⟨0, 0, BlockTree.new 0 0 0, 0, false⟩ Info.new (LruCache.new 16)

end Keramics.EwfInfo
