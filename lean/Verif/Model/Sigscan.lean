import Verif.Base.R

/-!
# Model of keramics-sigscan and of the format scanner

Not modelled: debug output, and overflow of the sums of a pattern offset and a pattern size while the tree is built (lengths are
natural numbers there). A hash map or ordered map of groups is the list of the insertions; the order in which the code visits
hash map entries has no effect on the result.
-/

namespace Keramics.Sigscan

/-- `PatternType`, enums.rs. -/
inductive PatternType
  | boundToEnd | boundToStart | unbound
deriving DecidableEq, Repr

/-- `Signature`, signature.rs:22-37. -/
structure Signature where
  identifier : String
  type : PatternType
  offset : Nat
  pattern : List Byte
deriving DecidableEq, Repr

/-- signature.rs:66-70. -/
def Signature.position (s : Signature) (dataOffset dataSize : Nat) : R Nat :=
  match s.type with
  | .boundToEnd => R.subU dataSize s.offset
  | .boundToStart => .ok s.offset
  | .unbound => .ok dataOffset

/-- `Signature::scan_buffer`, signature.rs:58-99. -/
def Signature.scan (s : Signature) (dataOffset dataSize : Nat) (buffer : List Byte) (bufferOffset : Nat) : R Bool := do
  let position ← s.position dataOffset dataSize
  if position < dataOffset then return false
  let start := if s.type = .unbound then bufferOffset else position - dataOffset
  let stop ← R.addU 64 start s.pattern.length
  if stop > buffer.length ∨ stop > dataSize then return false
  let found ← R.slice buffer start stop
  if found ≠ s.pattern then return false
  return s.type = .unbound ∨ dataOffset + start = position

/-- `SIGSCAN_COMMON_BYTE_VALUES`, constants.rs:16-273. -/
def common (b : Byte) : Bool :=
  let n := b.toNat
  n ≤ 1 || (0x9 ≤ n && n ≤ 0xa) || n == 0xd || n == 0x20 || (0x30 ≤ n && n ≤ 0x39) || (0x41 ≤ n && n ≤ 0x5a) || (0x61 ≤ n && n ≤ 0x7a) || n == 0xff

/-- The place of a pattern in a tree, signature_table.rs:105-109. The code subtracts from the largest offset, which is never
smaller. -/
def place (largest : Nat) (s : Signature) : Nat :=
  match s.type with
  | .boundToEnd => largest - s.offset
  | .boundToStart => s.offset
  | .unbound => 0

/-- `SignatureTable::fill`, signature_table.rs:95-123: the calls of `insert_signature`, as pattern offset, byte value and
signature. -/
def fill (largest : Nat) (ignore : List Nat) (signatures : List Signature) : List (Nat × Byte × Signature) :=
  signatures.flatMap fun s => (s.pattern.zipIdx.map fun (b, i) => (place largest s + i, b, s)).filter fun e => !ignore.contains e.1

/-- Insertion into an ordered list without duplicates. -/
def insertKey {α} (lt : α → α → Bool) (x : α) : List α → List α
  | [] => [x]
  | y :: ys => if lt x y then x :: y :: ys else if lt y x then y :: insertKey lt x ys else y :: ys

/-- The keys of `byte_value_groups`, in order, signature_table.rs:378-396. -/
def offsets (entries : List (Nat × Byte × Signature)) : List Nat :=
  entries.foldr (fun e acc => insertKey (fun a b => decide (a < b)) e.1 acc) []

/-- The keys of the `signature_groups` of a byte value group, groups.rs:39-49. -/
def values (entries : List (Nat × Byte × Signature)) (offset : Nat) : List Byte :=
  entries.foldr (fun e acc => if e.1 = offset then insertKey (fun a b => decide (a < b)) e.2.1 acc else acc) []

/-- A signature group, groups.rs:39-49. -/
def group (entries : List (Nat × Byte × Signature)) (offset : Nat) (value : Byte) : List Signature :=
  (entries.filter fun e => decide (e.1 = offset) && decide (e.2.1 = value)).map (·.2.2)

/-- The offsets appended with the largest weight, pattern_weights.rs:41-54, none if nothing was appended. -/
def heaviest (weights : List (Nat × Nat)) : List Nat :=
  let largest := weights.foldl (fun m w => max w.2 m) 0
  (weights.filter fun w => decide (w.2 = largest)).map (·.1)

/-- The occurrence weights, signature_table.rs:71-77. -/
def occurrences (entries : List (Nat × Byte × Signature)) : List (Nat × Nat) :=
  (offsets entries).filterMap fun o => if (values entries o).length > 1 then some (o, (values entries o).length) else none

/-- The similarity weights, signature_table.rs:78-85. -/
def similarities (entries : List (Nat × Byte × Signature)) : List (Nat × Nat) :=
  (offsets entries).flatMap fun o => (values entries o).filterMap fun v =>
    if (group entries o v).length > 1 then some (o, (group entries o v).length) else none

/-- The byte value weights, signature_table.rs:86-89. -/
def byteValues (entries : List (Nat × Byte × Signature)) : List (Nat × Nat) :=
  (offsets entries).flatMap fun o => (values entries o).filterMap fun v => if common v then some (o, 1) else none

/-- `get_weight`, pattern_weights.rs:57-62. -/
def weight (weights : List (Nat × Nat)) (offset : Nat) : Nat :=
  ((weights.reverse.find? fun w => w.1 = offset).map (·.2)).getD 0

/-- `get_pattern_offset_by_byte_value_weights`, signature_table.rs:155-189. -/
def byByteValue (entries : List (Nat × Byte × Signature)) : Option Nat := (heaviest (byteValues entries)).head?

/-- One step of the loop at signature_table.rs:225-242: the largest byte value weight and the pattern offset. -/
def occurrenceStep (entries : List (Nat × Byte × Signature)) (state : Option (Nat × Nat)) (o : Nat) : Option (Nat × Nat) :=
  match state with
  | none => some (weight (byteValues entries) o, o)
  | some (w, p) => if weight (byteValues entries) o > w then some (weight (byteValues entries) o, o) else some (w, p)

/-- `get_pattern_offset_by_occurrence_weights`, signature_table.rs:192-261. -/
def byOccurrence (entries : List (Nat × Byte × Signature)) : Option Nat :=
  match (heaviest (occurrences entries)).foldl (occurrenceStep entries) none with
  | some (_, o) => some o
  | none => byByteValue entries

/-- One step of the loop at signature_table.rs:299-330: the largest byte value weight, the largest occurrence weight and the
pattern offset. -/
def similarityStep (entries : List (Nat × Byte × Signature)) (state : Option (Nat × Nat × Nat)) (o : Nat) : Option (Nat × Nat × Nat) :=
  let occurrence := weight (occurrences entries) o
  let byteValue := weight (byteValues entries) o
  match state with
  | none => some (byteValue, occurrence, o)
  | some (b, w, p) =>
    let w := if w > 0 ∧ occurrence = w ∧ byteValue > b then 0 else w
    if occurrence > w then some (byteValue, occurrence, o) else some (b, w, p)

/-- `get_pattern_offset_by_similarity_weights`, signature_table.rs:264-353. -/
def bySimilarity (entries : List (Nat × Byte × Signature)) : Option Nat :=
  match (heaviest (similarities entries)).foldl (similarityStep entries) none with
  | some (_, _, o) => some o
  | none => byOccurrence entries

/-- `get_most_significant_pattern_offset`, signature_table.rs:126-152. `smallest_pattern_offset` starts as 0 (line 60) and only
gets smaller (line 387). -/
def mostSignificant (signatures : List Signature) (entries : List (Nat × Byte × Signature)) : Option Nat :=
  let result := match signatures.length with
    | 0 => none
    | 1 => byByteValue entries
    | 2 => byOccurrence entries
    | _ => bySimilarity entries
  if result.isNone ∧ entries ≠ [] then some 0 else result

/-- A scan object, scan_tree.rs:31-44, or `absent` for none. The key of an object is a byte value, or none for the default
(-1). -/
inductive Tree
  | absent
  | leaf (signature : Signature)
  | node (offset : Nat) (objects : Option Byte → Tree)

/-- `remaining_signatures`, scan_tree.rs:70-78, 356-375: those not equal to one with a byte at the offset. Signatures are equal if
their patterns are, signature.rs:102-107. -/
def remaining (signatures : List Signature) (entries : List (Nat × Byte × Signature)) (offset : Nat) : List Signature :=
  signatures.filter fun s => !entries.any fun e => decide (e.1 = offset) && decide (e.2.2.pattern = s.pattern)

/-- The objects of a node. -/
def objectsOf (children : List (Byte × Tree)) (default : Tree) : Option Byte → Tree
  | some b => (children.lookup b).getD .absent
  | none => default

/-- The object for a group of signatures, scan_tree.rs:95-126 and 133-157. `build` builds a node. -/
def object (build : List Signature → R Tree) (signatures others : List Signature) : R Tree :=
  match signatures with
  | [s] => .ok (.leaf s)
  | _ => build (signatures ++ others)

/-- The default object, scan_tree.rs:131-157. -/
def defaultObject (build : List Signature → R Tree) (remaining : List Signature) : R Tree :=
  match remaining with
  | [] => .ok .absent
  | _ => object build remaining []

/-- `ScanTreeNode::build` for the pattern offset `offset`, scan_tree.rs:70-159. -/
def buildNode (build : List Signature → R Tree) (signatures : List Signature) (entries : List (Nat × Byte × Signature)) (offset : Nat) : R Tree := do
  let rest := remaining signatures entries offset
  let children ← (values entries offset).mapM fun v => do
    let t ← object build (group entries offset v) rest
    return (v, t)
  let default ← defaultObject build rest
  return .node offset (objectsOf children default)

/-- `ScanTreeNode::build`, scan_tree.rs:56-159, for the table that `fill` makes of the signatures. The first argument is the
depth of the stack: running out of it is a crash. -/
def build (largest : Nat) : Nat → List Nat → List Signature → R Tree
  | 0, _, _ => .panic
  | depth + 1, ignore, signatures =>
    match mostSignificant signatures (fill largest ignore signatures) with
    | none => .err
    | some offset => buildNode (build largest depth (ignore ++ [offset])) signatures (fill largest ignore signatures) offset

/-- `SkipTable`, skip_table.rs:21-30. -/
structure SkipTable where
  smallest : Nat
  values : Byte → Option Nat
  smallestSkip : Nat

/-- skip_table.rs:44-50. -/
def smallestSize (signatures : List Signature) (initial : Nat) : Nat :=
  signatures.foldl (fun n s => if n = 0 then s.pattern.length else min s.pattern.length n) initial

/-- skip_table.rs:57-69. -/
def skipStep (state : SkipTable × Nat) (b : Byte) : SkipTable × Nat :=
  let v := state.2 - 1
  let insert := match state.1.values b with
    | some w => decide (v < w)
    | none => true
  if insert then
    ({ state.1 with values := fun x => if x = b then some v else state.1.values x,
                    smallestSkip := if v > 0 then min v state.1.smallestSkip else state.1.smallestSkip }, v)
  else (state.1, v)

/-- `SkipTable::fill`, skip_table.rs:43-72. -/
def SkipTable.fill (signatures : List Signature) : R SkipTable :=
  let smallest := smallestSize signatures 0
  signatures.foldlM (fun table s => do
    let bytes ← R.slice s.pattern 0 smallest
    return (bytes.foldl skipStep (table, smallest)).1) ⟨smallest, fun _ => none, smallest⟩

/-- `ScanTree`, scan_tree.rs:243-258. The start of the range is always 0 (line 281). -/
structure ScanTree where
  type : PatternType
  rangeEnd : Nat
  root : Tree
  skip : SkipTable

/-- `range_end_offset`, scan_tree.rs:275-284. -/
def largestEnd (signatures : List Signature) : Nat := signatures.foldl (fun m s => max (s.offset + s.pattern.length) m) 0

/-- `ScanTree::new` and `ScanTree::build`, scan_tree.rs:262-296. -/
def ScanTree.build (depth : Nat) (type : PatternType) (signatures : List Signature) : R ScanTree :=
  let own := signatures.filter fun s => decide (s.type = type)
  if own = [] then .ok ⟨type, 0, .node 0 fun _ => .absent, ⟨0, fun _ => none, 0⟩⟩
  else do
    let root ← Sigscan.build (largestEnd own) depth [] own
    let skip ← SkipTable.fill signatures
    return ⟨type, largestEnd own, root, skip⟩

/-- `Scanner`, scanner.rs:23-35. -/
structure Scanner where
  header : ScanTree
  footer : ScanTree
  unbound : ScanTree

/-- `Scanner::build`, scanner.rs:54-58. -/
def Scanner.build (depth : Nat) (signatures : List Signature) : R Scanner := do
  let header ← ScanTree.build depth .boundToStart signatures
  let footer ← ScanTree.build depth .boundToEnd signatures
  let unbound ← ScanTree.build depth .unbound signatures
  return ⟨header, footer, unbound⟩

/-- The byte that a node looks at, scan_tree.rs:175-185. -/
def byteAt (dataOffset dataSize : Nat) (buffer : List Byte) (position : Nat) : Option Byte :=
  if position < dataSize - dataOffset then buffer[position]? else none

/-- `ScanTreeNode::scan_buffer`, scan_tree.rs:162-238, with the descent of scan_context.rs:95-99. -/
def Tree.scan (dataOffset dataSize : Nat) (buffer : List Byte) (bufferOffset : Nat) : Tree → R (Option Signature)
  | .absent => .ok none
  | .leaf s => do
    let found ← s.scan dataOffset dataSize buffer bufferOffset
    return if found then some s else none
  | .node offset objects =>
    if dataOffset ≥ dataSize then .ok none
    else
      let key := byteAt dataOffset dataSize buffer (bufferOffset + offset)
      if key = none then (objects none).scan dataOffset dataSize buffer bufferOffset
      else
        match objects key with
        | .absent => (objects none).scan dataOffset dataSize buffer bufferOffset
        | .leaf s => do
          let found ← s.scan dataOffset dataSize buffer bufferOffset
          if found then return some s
          else (objects none).scan dataOffset dataSize buffer bufferOffset
        | .node _ _ => (objects key).scan dataOffset dataSize buffer bufferOffset

/-- The loop at scan_context.rs:116-130. -/
def skipLoop (tree : ScanTree) (buffer : List Byte) (bufferOffset : Nat) : Nat → R Nat
  | 0 => .panic
  | i + 1 => do
    let b ← R.get buffer (i + 1)
    let v := (tree.skip.values b).getD 0
    let v := if v = 0 then (if tree.type = .unbound then tree.skip.smallestSkip else tree.skip.smallest) else v
    if i ≤ bufferOffset ∨ v ≠ 0 then return v
    else skipLoop tree buffer bufferOffset i

/-- scan_context.rs:111-130. -/
def skipValue (tree : ScanTree) (buffer : List Byte) (bufferOffset : Nat) : R Nat := do
  let start ← R.subU (bufferOffset + min buffer.length tree.skip.smallest) 1
  skipLoop tree buffer bufferOffset (min start (buffer.length - 1))

/-- `results`, scan_context.rs:45. -/
abbrev Results := Nat → Option Signature

/-- scan_context.rs:94-132: the results and the skip value. -/
def record (tree : ScanTree) (dataOffset dataSize : Nat) (buffer : List Byte) (bufferOffset : Nat) (results : Results) :
    Option Signature → R (Results × Nat)
  | some s => do
    let position ← s.position dataOffset dataSize
    return (fun o => if o = position then some s else results o, s.pattern.length)
  | none => do
    let skip ← skipValue tree buffer bufferOffset
    return (results, skip)

/-- `scan_buffer_with_scan_tree`, scan_context.rs:75-138. The loop ends after as many rounds as there are bytes, or never; never
is `panic`. -/
def scanWith (tree : ScanTree) (dataOffset dataSize : Nat) (buffer : List Byte) : Nat → Nat → Results → R Results
  | 0, _, _ => .panic
  | rounds + 1, bufferOffset, results =>
    if bufferOffset < buffer.length then do
      let found ← tree.root.scan dataOffset dataSize buffer bufferOffset
      let (results, skip) ← record tree dataOffset dataSize buffer bufferOffset results found
      if tree.type ≠ .unbound then return results
      else scanWith tree dataOffset dataSize buffer rounds (bufferOffset + skip) results
    else .ok results

/-- The header scan, scan_context.rs:146-148. -/
def scanHeader (scanner : Scanner) (dataOffset dataSize : Nat) (buffer : List Byte) (results : Results) : R Results :=
  if dataOffset < scanner.header.rangeEnd then scanWith scanner.header dataOffset dataSize buffer (buffer.length + 1) 0 results
  else .ok results

/-- The footer scan, scan_context.rs:151-170. -/
def scanFooter (scanner : Scanner) (dataOffset dataSize : Nat) (buffer : List Byte) (results : Results) : R Results :=
  let next := dataOffset + buffer.length
  let start := dataSize - scanner.footer.rangeEnd
  if next ≥ start then
    scanWith scanner.footer dataOffset dataSize buffer (buffer.length + 1) (buffer.length - (next - start)) results
  else .ok results

/-- The unbound scan, scan_context.rs:171-178. -/
def scanUnbound (scanner : Scanner) (dataOffset dataSize : Nat) (buffer : List Byte) (results : Results) : R Results :=
  if scanner.unbound.rangeEnd > 0 then scanWith scanner.unbound dataOffset dataSize buffer (buffer.length + 1) 0 results
  else .ok results

/-- `ScanContext::scan_buffer`, scan_context.rs:141-180: the results. `data_offset` is the first of the arguments; the caller keeps
it (line 179). -/
def scanBuffer (scanner : Scanner) (dataOffset dataSize : Nat) (buffer : List Byte) (results : Results) : R Results :=
  if buffer = [] then .ok results
  else do
    let results ← scanHeader scanner dataOffset dataSize buffer results
    let results ← scanFooter scanner dataOffset dataSize buffer results
    scanUnbound scanner dataOffset dataSize buffer results

/-- A new context, scan_context.rs:50-72, and a scan of each buffer at its data offset. -/
def scanAll (scanner : Scanner) (dataSize : Nat) (buffers : List (Nat × List Byte)) : R Results :=
  buffers.foldlM (fun results b => scanBuffer scanner b.1 dataSize b.2 results) fun _ => none

/-- A buffer of zeros filled by a read at an offset of the data. -/
def filled (data : List Byte) (offset size : Nat) : List Byte :=
  let read := (data.drop offset).take size
  read ++ List.replicate (size - read.length) 0

/-- `FormatScanner::scan_data_stream`, keramics-formats/src/scanner.rs:250-284: the results of the two scans. A read returns as
many bytes as there are. -/
def scanStream (scanner : Scanner) (data : List Byte) : R Results :=
  let footer := scanner.footer.rangeEnd
  let padding := if footer < data.length then 0 else footer - data.length
  let start := if footer < data.length then data.length - footer else 0
  scanAll scanner data.length
    [(0, filled data 0 scanner.header.rangeEnd), (start, List.replicate padding 0 ++ filled data start (footer - padding))]

/-- `add_apm_signatures`, keramics-formats/src/scanner.rs:37. -/
def apmSignatures : List Signature :=
  [⟨"apm1", .boundToStart, 560, [0x41, 0x70, 0x70, 0x6c, 0x65, 0x5f, 0x70, 0x61, 0x72, 0x74, 0x69, 0x74, 0x69, 0x6f, 0x6e, 0x5f, 0x6d, 0x61, 0x70, 0x00, 0x00, 0x00, 0x00, 0x00, 0x00, 0x00, 0x00, 0x00, 0x00, 0x00, 0x00, 0x00]⟩]

/-- `add_ext_signatures`, keramics-formats/src/scanner.rs:54. -/
def extSignatures : List Signature :=
  [⟨"ext1", .boundToStart, 1080, [0x53, 0xef]⟩]

/-- `add_ewf_signatures`, keramics-formats/src/scanner.rs:65. -/
def ewfSignatures : List Signature :=
  [⟨"ewf1", .boundToStart, 0, [0x45, 0x56, 0x46, 0x09, 0x0d, 0x0a, 0xff, 0x00]⟩]

/-- `add_fat_signatures`, keramics-formats/src/scanner.rs:76. -/
def fatSignatures : List Signature :=
  [⟨"fat1", .boundToStart, 54, [0x46, 0x41, 0x54, 0x31, 0x32, 0x20, 0x20, 0x20]⟩,
   ⟨"fat2", .boundToStart, 54, [0x46, 0x41, 0x54, 0x31, 0x36, 0x20, 0x20, 0x20]⟩,
   ⟨"fat3", .boundToStart, 82, [0x46, 0x41, 0x54, 0x33, 0x32, 0x20, 0x20, 0x20]⟩]

/-- `add_gpt_signatures`, keramics-formats/src/scanner.rs:101. -/
def gptSignatures : List Signature :=
  [⟨"gpt1", .boundToStart, 512, [0x45, 0x46, 0x49, 0x20, 0x50, 0x41, 0x52, 0x54]⟩,
   ⟨"gpt2", .boundToStart, 1024, [0x45, 0x46, 0x49, 0x20, 0x50, 0x41, 0x52, 0x54]⟩,
   ⟨"gpt3", .boundToStart, 2048, [0x45, 0x46, 0x49, 0x20, 0x50, 0x41, 0x52, 0x54]⟩,
   ⟨"gpt4", .boundToStart, 4096, [0x45, 0x46, 0x49, 0x20, 0x50, 0x41, 0x52, 0x54]⟩]

/-- `add_mbr_signatures`, keramics-formats/src/scanner.rs:133. -/
def mbrSignatures : List Signature :=
  [⟨"mbr1", .boundToStart, 510, [0x55, 0xaa]⟩,
   ⟨"mbr2", .boundToStart, 1022, [0x55, 0xaa]⟩,
   ⟨"mbr3", .boundToStart, 2046, [0x55, 0xaa]⟩,
   ⟨"mbr4", .boundToStart, 4094, [0x55, 0xaa]⟩]

/-- `add_ntfs_signatures`, keramics-formats/src/scanner.rs:165. -/
def ntfsSignatures : List Signature :=
  [⟨"ntfs1", .boundToStart, 3, [0x4e, 0x54, 0x46, 0x53, 0x20, 0x20, 0x20, 0x20]⟩]

/-- `add_qcow_signatures`, keramics-formats/src/scanner.rs:176. -/
def qcowSignatures : List Signature :=
  [⟨"qcow1", .boundToStart, 0, [0x51, 0x46, 0x49, 0xfb, 0x00, 0x00, 0x00, 0x01]⟩,
   ⟨"qcow2", .boundToStart, 0, [0x51, 0x46, 0x49, 0xfb, 0x00, 0x00, 0x00, 0x02]⟩,
   ⟨"qcow3", .boundToStart, 0, [0x51, 0x46, 0x49, 0xfb, 0x00, 0x00, 0x00, 0x03]⟩]

/-- `add_sparseimage_signatures`, keramics-formats/src/scanner.rs:201. -/
def sparseimageSignatures : List Signature :=
  [⟨"sparseimage1", .boundToStart, 0, [0x73, 0x70, 0x72, 0x73]⟩]

/-- `add_udif_signatures`, keramics-formats/src/scanner.rs:212. -/
def udifSignatures : List Signature :=
  [⟨"udif1", .boundToEnd, 512, [0x6b, 0x6f, 0x6c, 0x79]⟩]

/-- `add_vhd_signatures`, keramics-formats/src/scanner.rs:223. -/
def vhdSignatures : List Signature :=
  [⟨"vhd1", .boundToEnd, 512, [0x63, 0x6f, 0x6e, 0x65, 0x63, 0x74, 0x69, 0x78]⟩]

/-- `add_vhdx_signatures`, keramics-formats/src/scanner.rs:234. -/
def vhdxSignatures : List Signature :=
  [⟨"vhdx1", .boundToStart, 0, [0x76, 0x68, 0x64, 0x78, 0x66, 0x69, 0x6c, 0x65]⟩]

/-- `FormatIdentifier`, keramics-formats/src/enums.rs. -/
inductive Format
  | apm | ext | ewf | fat | gpt | mbr | ntfs | qcow | sparseImage | udif | unknown | vhd | vhdx
deriving DecidableEq, Repr

/-- The calls of `add_…_signatures` for a format, keramics-formats/src/scanner.rs:36-247. -/
def signaturesOf : Format → List Signature
  | .apm => apmSignatures
  | .ext => extSignatures
  | .ewf => ewfSignatures
  | .fat => fatSignatures
  | .gpt => gptSignatures
  | .mbr => mbrSignatures
  | .ntfs => ntfsSignatures
  | .qcow => qcowSignatures
  | .sparseImage => sparseimageSignatures
  | .udif => udifSignatures
  | .unknown => []
  | .vhd => vhdSignatures
  | .vhdx => vhdxSignatures

/-- The format of an identifier, keramics-formats/src/scanner.rs:288-302. -/
def formatOf (identifier : String) : Format :=
  if identifier = "apm1" then .apm
  else if identifier = "ext1" then .ext
  else if identifier = "ewf1" then .ewf
  else if identifier = "fat1" ∨ identifier = "fat2" ∨ identifier = "fat3" then .fat
  else if identifier = "gpt1" ∨ identifier = "gpt2" ∨ identifier = "gpt3" ∨ identifier = "gpt4" then .gpt
  else if identifier = "mbr1" ∨ identifier = "mbr2" ∨ identifier = "mbr3" ∨ identifier = "mbr4" then .mbr
  else if identifier = "ntfs1" then .ntfs
  else if identifier = "qcow1" ∨ identifier = "qcow2" ∨ identifier = "qcow3" then .qcow
  else if identifier = "sparseimage1" then .sparseImage
  else if identifier = "udif1" then .udif
  else if identifier = "vhd1" then .vhd
  else if identifier = "vhdx1" then .vhdx
  else .unknown

/-- `FormatScanner::scan_data_stream`, keramics-formats/src/scanner.rs:255-307: the set of formats. -/
def scanFormats (scanner : Scanner) (data : List Byte) : R (Format → Prop) := do
  let results ← scanStream scanner data
  return fun f => ∃ k s, results k = some s ∧ formatOf s.identifier = f

end Keramics.Sigscan
