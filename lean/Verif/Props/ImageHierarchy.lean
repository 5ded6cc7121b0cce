import Verif.Spec.ImageHierarchy
import Verif.Props.VfsScanner

/-!
# C84: the hierarchy that the image tool prints
-/

namespace Keramics.ImageHierarchy
open Keramics.Spec VfsScanner Spec.Hierarchy
open Vfs (VfsType Location)
open HashTool (Out after printed)
open InfoTool (say)

variable {D : Type}

theorem indent_eq (depth : Nat) : List.replicate (depth * 4) 0x20 = (List.replicate depth (codePoints "    ")).flatten := by
  induction depth with
  | zero => rfl
  | succ n ih => 
    rw [Nat.succ_mul, Nat.add_comm, ← List.replicate_append_replicate, ih]
    rfl

/-- The line of a node. -/
theorem nodeLine_eq (depth : Nat) (location : Location ScanPath) (id : Option Uuid.Uuid) (text : List Nat) (name : String)
    (h : pathText (pathOf location) = .ok text) (hn : typeText location.type = codePoints name) :
    nodeLine depth location id = .ok (line depth name (text ++ suffix id)) := by
  simp only [nodeLine, h, hn, R.ok_bind, R.pure_eq, line, indent_eq, List.append_assoc]

theorem printNode_ok (x : Data D) (depth : Nat) (location : Location ScanPath) (subs : List Node) (id : Option Uuid.Uuid) (text : List Nat) (name : String)
    (below : List (List Nat)) (h : lookup x location = .ok id) (ht : pathText (pathOf location) = .ok text) (hn : typeText location.type = codePoints name)
    (hs : printNodes x (depth + 1) subs = say below) :
    printNode x depth (.node location subs) = say (line depth name (text ++ suffix id) :: below) := by
  simp only [printNode, h, after, nodeLine_eq depth location id text name ht hn, printed, hs]
  rfl

theorem printNodes_cons (x : Data D) (depth : Nat) (sub : Node) (subs : List Node) (a b : List (List Nat)) (h1 : printNode x depth sub = say a)
    (h2 : printNodes x depth subs = say b) : printNodes x depth (sub :: subs) = say (a ++ b) := by
  simp only [printNodes, h1, h2]
  rfl

theorem printNodes_one (x : Data D) (depth : Nat) (sub : Node) (a : List (List Nat)) (h1 : printNode x depth sub = say a) :
    printNodes x depth [sub] = say a := by
  rw [printNodes_cons x depth sub [] a [] h1 (by rw [printNodes]), List.append_nil]

theorem printNodes_nil (x : Data D) (depth : Nat) : printNodes x depth [] = say [] := by rw [printNodes]

theorem part_text (k : PartsKind) (nm : List Nat) (h : nm ≠ []) : pathText (.vfs (.string [[], k.label ++ nm])) = .ok (codePoints "/" ++ k.label ++ nm) := by
  simp only [pathText, Path.VfsPath.text, Path.toText, List.length_cons, List.length_nil]
  rw [if_neg (by simp)]
  rfl

theorem kind_text (k : PartsKind) : typeText k.type = codePoints (kindName k) := by cases k <;> rfl

/-- The lines of a file system. -/
theorem volume_print (x : Data D) (hx : FilesOpen x) (depth : Nat) (fs : FileSystem D) (location : Location ScanPath) (d : D) (f : Volume)
    (hfs : openFileSystem x.world location = .ok fs) (hd : stream x.world fs (pathOf location) = .ok d) (h : HoldsVolume x.world d f) :
    printNodes x depth (f.nodes location) = say (volumeLines depth f) := by
  cases f with
  | nothing => exact printNodes_nil x depth
  | ext =>
    apply printNodes_one
    exact printNode_ok x depth _ [] none [0x2f] "EXT" [] (by simp [lookup, hfs, hd, (hx d).1 h]) rfl rfl (printNodes_nil _ _)
  | fat =>
    apply printNodes_one
    exact printNode_ok x depth _ [] none [0x2f] "FAT" [] (by simp [lookup, hfs, hd, (hx d).2.1 h]) rfl rfl (printNodes_nil _ _)
  | ntfs =>
    apply printNodes_one
    exact printNode_ok x depth _ [] none [0x5c] "NTFS" [] (by simp [lookup, hfs, hd, (hx d).2.2 h]) rfl rfl (printNodes_nil _ _)

theorem lookup_parts (x : Data D) (fs : FileSystem D) (location : Location ScanPath) (k : PartsKind) (s : VfsParts.System D) (path : Path.VfsPath)
    (hfs : openFileSystem x.world location = .ok fs) (hs : openIn x.world fs (pathOf location) k.type = .ok s) :
    lookup x (.layer (.vfs path) location k.type) = partIdentifier x k.type s path := by
  have : ¬ (k.type = .ext ∨ k.type = .fat ∨ k.type = .ntfs) := by cases k <;> simp [PartsKind.type]
  simp only [lookup, hfs, R.ok_bind, if_neg this, hs]

theorem root_identifier (x : Data D) (t : VfsType) (s : VfsParts.System D) : partIdentifier x t s (.string [[]]) = .ok none := by
  simp [partIdentifier, VfsParts.byPath, identifierOf]

/-- The node of an image or volume system. -/
theorem root_print (x : Data D) (depth : Nat) (fs : FileSystem D) (location : Location ScanPath) (k : PartsKind) (s : VfsParts.System D)
    (hfs : openFileSystem x.world location = .ok fs) (hs : openIn x.world fs (pathOf location) k.type = .ok s) (subs : List Node)
    (below : List (List Nat)) (hb : printNodes x (depth + 1) subs = say below) :
    printNode x depth (.node (rootLocation k location) subs) = say (line depth (kindName k) (codePoints "/") :: below) := by
  refine printNode_ok x depth _ subs none [0x2f] (kindName k) below ?_ rfl (kind_text k) hb
  rw [rootLocation, lookup_parts x fs location k s _ hfs hs, root_identifier]

theorem printNodes_mapIdx (x : Data D) (depth : Nat) (ps : List Volume) (node : Nat → Volume → Node) (lines : Nat → Volume → List (List Nat))
    (h : ∀ i (hi : i < ps.length), printNode x depth (node i ps[i]) = say (lines i ps[i])) :
    printNodes x depth (ps.mapIdx node) = say (ps.mapIdx lines).flatten := by
  induction ps generalizing node lines with
  | nil => exact printNodes_nil x depth
  | cons p ps ih =>
    rw [List.mapIdx_cons, List.mapIdx_cons, List.flatten_cons]
    exact printNodes_cons x depth _ _ _ _ (h 0 (by simp)) (ih _ _ fun i hi => h (i + 1) (by simpa using hi))

theorem codePoints_ne (n : Nat) : codePoints (toString n) ≠ [] := by
  rw [← decimal_eq]
  exact (VfsParts.decimal_spec n).1.1

/-- The lines of a disk. -/
theorem disk_print (x : Data D) (hx : FilesOpen x) (depth : Nat) (fs : FileSystem D) (location : Location ScanPath) (d : D) (c : Disk) (lines : List (List Nat))
    (hfs : openFileSystem x.world location = .ok fs) (hd : stream x.world fs (pathOf location) = .ok d) (h : HoldsDisk x.world d c)
    (hl : DiskLines x depth d lines c) : printNodes x depth (c.nodes location) = say lines := by
  cases c with
  | files f => rw [show lines = _ from hl]; exact volume_print x hx depth fs location d f hfs hd h.1
  | partitions k ps =>
    have hk := volumes_of x.world d k ps h
    obtain ⟨-, hlen, s, hs, hsk, hsn, hparts⟩ := h
    obtain ⟨identifier, hid, rfl⟩ := hl
    subst hsk
    have hin := openIn_volumes x.world fs (pathOf location) _ hk d hd
    rw [hs] at hin
    apply printNodes_one
    apply root_print x depth fs location s.kind s hfs hin
    apply printNodes_mapIdx
    intro i hi
    obtain ⟨p, hp, hf⟩ := hparts i hi
    have hst := parts_stream x.world s (by omega) (fun h => absurd h (oneLayer_volumes hk)) i (by omega) p hp
    have hopen : openFileSystem x.world (partLocation s.kind (i + 1) location) = .ok (.parts s) := by
      show (do
        let fs ← openFileSystem x.world location
        let s ← openIn x.world fs (pathOf location) s.kind.type
        pure (FileSystem.parts s)) = _
      rw [hfs, R.ok_bind, hin]
      rfl
    have hb := volume_print x hx (depth + 1 + 1) (.parts s) (partLocation s.kind (i + 1) location) p ps[i] hopen hst hf
    have hlook : lookup x (partLocation s.kind (i + 1) location) = .ok (if s.kind = .gpt then some (x.identifier p) else none) := by
      rw [partLocation, lookup_parts x fs location s.kind s _ hfs hin]
      have hidx := VfsParts.indexOf_name s (by omega) (fun h => absurd h (oneLayer_volumes hk)) i (by omega) _ (isPartName s.kind i)
      have ht : s.kind.type = .gpt ↔ s.kind = .gpt := by cases s.kind <;> simp [PartsKind.type]
      generalize s.kind.label ++ codePoints (toString (i + 1)) = nm at hidx ⊢
      simp [partIdentifier, VfsParts.byPath, hidx, hp, identifierOf, ht]
    have := printNode_ok x (depth + 1) (partLocation s.kind (i + 1) location) _ _ _ (kindName s.kind) _ hlook
      (part_text s.kind _ (codePoints_ne (i + 1))) (kind_text s.kind) hb
    rw [this]
    have hal : suffix (if s.kind = .gpt then some (x.identifier p) else none) = aliasText s.kind (identifier i) := by
      rw [hid s i p hs hi hp]
      cases s.kind <;> rfl
    rw [hal]

end Keramics.ImageHierarchy

namespace Keramics.Props
open Keramics.Spec VfsScanner Spec.Hierarchy ImageHierarchy
open Vfs (VfsType Location)
open InfoTool (say)

variable {D : Type}

/-- C84, for files that are EWF, QCOW, VHD or VHDX images or no images: the hierarchy command prints the tree of the image, the volume system,
the partitions and the file systems, one line each and each below what it is in. Missing: that file systems that are recognised can be
opened is assumed (`C84_violated_open`); the files that C69 leaves out; the aliases do not lead to partitions (`C84_violated_alias`). `fuel`
bounds the depth of the calls. -/
theorem C84_hierarchy_partial (x : Data D) (fuel : Nat) (path : List Nat) (d : D) (c : Content) (hos : x.world.os path = .ok (some ⟨.file, .ok d⟩))
    (h : HoldsContent x.world path d c) (hk : ∀ k n v, c = .image k n v → k = .ewf ∨ k = .qcow ∨ k = .vhd ∨ k = .vhdx) (hx : FilesOpen x)
    (lines : List (List Nat)) (hl : FileLines x path d lines c) :
    hierarchy x (fuel + 4) path = (lines, .ok ()) := by
  have hbase : lookup x (.base (.os path) .os) = .ok none := by simp [lookup, hos]
  rw [hierarchy, C69_scan_partial x.world fuel path d c hos h hk]
  show printNode x 0 _ = _
  cases c with
  | raw v =>
    obtain ⟨below, hb, rfl⟩ := hl
    have := printNode_ok x 0 (.base (.os path) .os) _ none path "OS" below hbase rfl rfl
      (disk_print x hx 1 .os (.base (.os path) .os) d v below rfl (os_stream x.world path d hos) h.2 hb)
    rw [show suffix none = [] from rfl, List.append_nil] at this
    exact this
  | image k n v =>
    have hk := hk k n v rfl
    obtain ⟨-, s, top, hs, hsk, hsn, h0, hn, h1, htop, hc⟩ := h
    obtain ⟨s', top', below, hs', htop', hb, rfl⟩ := hl
    rw [hs] at hs'
    cases hs'
    rw [htop] at htop'
    cases htop'
    have hopen : openIn x.world .os (.os path) k.type = .ok s := by
      rcases hk with hk | hk | hk | hk <;> subst hk <;> exact hs
    obtain ⟨m, rfl⟩ : ∃ m, n = m + 1 := ⟨n - 1, by omega⟩
    rw [Nat.add_sub_cancel] at htop
    subst hsk
    have hst := parts_stream x.world s (by omega) (by intro h; rw [hsn]; exact h1 h) m (by omega) top htop
    have hfs : openFileSystem x.world (partLocation s.kind (m + 1) (.base (.os path) .os)) = .ok (.parts s) := by
      show (do
        let fs ← openFileSystem x.world (.base (.os path) .os)
        let s ← openIn x.world fs (.os path) s.kind.type
        pure (FileSystem.parts s)) = _
      rw [show openFileSystem x.world (.base (.os path) .os) = .ok .os from rfl, R.ok_bind, hopen]
      rfl
    have hdisk := disk_print x hx 2 (.parts s) (partLocation s.kind (m + 1) (.base (.os path) .os)) top v below hfs hst hc hb
    have hroot := root_print x 1 .os (.base (.os path) .os) s.kind s rfl hopen _ _ hdisk
    have := printNode_ok x 0 (.base (.os path) .os) _ none path "OS" _ hbase rfl rfl (printNodes_one x 1 _ _ hroot)
    rw [show suffix none = [] from rfl, List.append_nil] at this
    exact this

/-- C84: the path that is printed for a partition leads to it. -/
theorem C84_path (s : VfsParts.System D) (hn : s.number < 2 ^ 64) (h1 : s.kind.OneLayer → s.number = 1) (i : Nat) (hi : i < s.number) (d : D)
    (hd : s.get i = .ok d) :
    VfsParts.byPath s (Path.VfsPath.fromText .string (codePoints "/" ++ s.kind.label ++ codePoints (toString (i + 1)))) = .ok (some (.part i d)) := by
  obtain ⟨h2, h3⟩ := VfsParts.partName_slash (isPartName s.kind i)
  have hidx := VfsParts.indexOf_name s hn h1 i hi _ (isPartName s.kind i)
  rw [List.append_assoc, show codePoints "/" ++ (s.kind.label ++ codePoints (toString (i + 1))) = 0x2f :: (s.kind.label ++ codePoints (toString (i + 1))) from rfl,
    VfsParts.path_components _ h2 h3]
  generalize s.kind.label ++ codePoints (toString (i + 1)) = nm at hidx ⊢
  simp [VfsParts.byPath, hidx, hd]

/-- C84 does not hold in full: the alias that is printed for a partition of a GPT leads to no file entry, whatever its identifier. -/
theorem C84_violated_alias (s : VfsParts.System D) (hk : s.kind = .gpt) (identifier : List Nat) :
    VfsParts.byPath s (.string [[], codePoints "gpt{" ++ identifier ++ codePoints "}"]) = .ok none ∧
    VfsParts.existsAt s (.string [[], codePoints "gpt{" ++ identifier ++ codePoints "}"]) = .ok false := by
  have hidx : VfsParts.indexOf s (codePoints "gpt{" ++ identifier ++ codePoints "}") = none := by
    simp only [VfsParts.indexOf, hk, VfsParts.numbered]
    have : List.drop (VfsParts.skipped .gpt) (codePoints "gpt{" ++ identifier ++ codePoints "}") = 0x7b :: (identifier ++ codePoints "}") := rfl
    rw [this]
    simp [VfsParts.parse, VfsParts.parseDigits]
  generalize codePoints "gpt{" ++ identifier ++ codePoints "}" = nm at hidx ⊢
  constructor
  · simp [VfsParts.byPath, hidx]
  · simp [VfsParts.existsAt, hidx]

/-- C84 does not hold in full: if the file system of the first partition is recognised but cannot be opened, the lines end with those above
it, and whatever the partitions behind it hold is not printed. -/
theorem C84_violated_open (x : Data D) (fuel : Nat) (path : List Nat) (d : D) (ps : List Volume) (hos : x.world.os path = .ok (some ⟨.file, .ok d⟩))
    (h : HoldsContent x.world path d (.raw (.partitions .mbr (.ext :: ps)))) (hx : ∀ p, x.files .ext p = .err) :
    hierarchy x (fuel + 4) path =
      ([line 0 "OS" path, line 1 "MBR" (codePoints "/"), line 2 "MBR" (codePoints "/mbr1")], .err) := by
  have hbase : lookup x (.base (.os path) .os) = .ok none := by simp [lookup, hos]
  rw [hierarchy, C69_scan_partial x.world fuel path d _ hos h (by simp)]
  obtain ⟨-, -, hlen, s, hs, hsk, hsn, hparts⟩ := h
  have hin := openIn_volumes x.world .os (.os path) .mbr (.inr (.inr rfl)) d (os_stream x.world path d hos)
  rw [hs] at hin
  rw [List.length_cons] at hlen hsn
  obtain ⟨p, hp, hf⟩ := hparts 0 (by simp)
  have hst := parts_stream x.world s (by omega) (fun h => absurd h (by rw [hsk]; simp [PartsKind.OneLayer])) 0 (by omega) p hp
  rw [hsk] at hst
  have hopen : openFileSystem x.world (partLocation .mbr 1 (.base (.os path) .os)) = .ok (.parts s) := by
    show (do
      let fs ← openFileSystem x.world (.base (.os path) .os)
      let s ← openIn x.world fs (.os path) PartsKind.mbr.type
      pure (FileSystem.parts s)) = _
    rw [show openFileSystem x.world (.base (.os path) .os) = .ok .os from rfl, R.ok_bind, hin]
    rfl
  have hleaf : lookup x (.layer (.vfs (.ext [[]])) (partLocation .mbr 1 (.base (.os path) .os)) .ext) = .err := by
    simp only [lookup, hopen, R.ok_bind]
    rw [show pathOf (partLocation .mbr 1 (.base (.os path) .os)) = .vfs (.string [[], PartsKind.mbr.label ++ codePoints (toString (0 + 1))]) from rfl, hst]
    simp [hx]
  have hlook : lookup x (partLocation .mbr 1 (.base (.os path) .os)) = .ok none := by
    rw [partLocation, lookup_parts x .os (.base (.os path) .os) .mbr s _ rfl hin]
    have hidx := VfsParts.indexOf_name s (by omega) (fun h => absurd h (by rw [hsk]; simp [PartsKind.OneLayer])) 0 (by omega) _ (isPartName s.kind 0)
    rw [hsk] at hidx
    simp only [Nat.zero_add] at hidx
    generalize PartsKind.mbr.label ++ codePoints (toString 1) = nm at hidx ⊢
    simp [partIdentifier, VfsParts.byPath, hidx, hp, PartsKind.type]
  have hroot : lookup x (rootLocation .mbr (.base (.os path) .os)) = .ok none := by
    rw [rootLocation, lookup_parts x .os (.base (.os path) .os) .mbr s _ rfl hin, root_identifier]
  have hl0 : nodeLine 0 (.base (.os path) .os) none = .ok (line 0 "OS" path) := by
    rw [nodeLine_eq 0 _ none path "OS" rfl rfl, show suffix none = [] from rfl, List.append_nil]
  have hl1 : nodeLine 1 (rootLocation .mbr (.base (.os path) .os)) none = .ok (line 1 "MBR" (codePoints "/")) :=
    nodeLine_eq 1 _ none (codePoints "/") "MBR" rfl rfl
  have hl2 : nodeLine 2 (partLocation .mbr 1 (.base (.os path) .os)) none = .ok (line 2 "MBR" (codePoints "/mbr1")) :=
    nodeLine_eq 2 _ none (codePoints "/mbr1") "MBR" (part_text .mbr _ (codePoints_ne 1)) rfl
  simp only [HashTool.after, Content.nodes, Disk.nodes, Volume.nodes, List.mapIdx_cons, Nat.zero_add, printNode, printNodes, hbase, hroot, hlook,
    hleaf, hl0, hl1, hl2, HashTool.printed, HashTool.Out.andThen]
  rfl

namespace ImageHierarchyExample
open VfsScannerExample

/-- The file of C69: a QCOW image with two layers, the last of which has a GPT with a FAT and an NTFS volume and one that is empty. -/
def data : Data Nat := ⟨world, fun _ _ => .ok (), fun d => ⟨d, 1, 2, 0x304, 0x05060708090a⟩⟩

example : FilesOpen data ∧ FileLines data [0x61] 0 (
    [codePoints "OS: path: a", codePoints "    QCOW: path: /", codePoints "        GPT: path: /",
      codePoints "            GPT: path: /gpt1 (alias: /gpt{00000003-0001-0002-0304-05060708090a})", codePoints "                FAT: path: /",
      codePoints "            GPT: path: /gpt2 (alias: /gpt{00000004-0001-0002-0304-05060708090a})", codePoints "                NTFS: path: \\",
      codePoints "            GPT: path: /gpt3 (alias: /gpt{00000005-0001-0002-0304-05060708090a})"]) content := by
  refine ⟨fun d => ⟨fun _ => rfl, fun _ => rfl, fun _ => rfl⟩, VfsParts.ofLayers .qcow [1, 2], 2, _, rfl, rfl,
    ⟨fun i => (Uuid.toString (data.identifier (i + 3))).map BitVec.toNat, ?_, rfl⟩, by decide +kernel⟩
  intro s i p hs hi hp
  cases hs
  match i, hi with
  | 0, _ => cases hp; rfl
  | 1, _ => cases hp; rfl
  | 2, _ => cases hp; rfl

/-- The second partition is found by its path and not by its alias. -/
example : VfsParts.byPath (VfsParts.ofLayers .gpt [3, 4, 5]) (Path.VfsPath.fromText .string (codePoints "/gpt2")) = .ok (some (.part 1 4)) ∧
    VfsParts.byPath (VfsParts.ofLayers .gpt [3, 4, 5])
      (.string [[], codePoints "gpt{" ++ (Uuid.toString (data.identifier 4)).map BitVec.toNat ++ codePoints "}"]) = .ok none :=
  ⟨C84_path (VfsParts.ofLayers .gpt [3, 4, 5]) (by decide) (by rintro (h | h | h) <;> cases h) 1 (by decide) 4 rfl,
    (C84_violated_alias _ rfl _).1⟩

/-- A disk with an MBR, the first volume of which is recognised as an ext file system that cannot be opened. -/
def broken : Data Nat :=
  { data with
    world := { world with
      scan := fun formats d => .ok (formats.filter fun f => (d = 0 ∧ f = .mbr) ∨ (d = 1 ∧ f = .ext) ∨ (d = 2 ∧ f = .fat))
      volumes := fun k d => if k = .mbr ∧ d = 0 then .ok (VfsParts.ofLayers .mbr [1, 2]) else .err }
    files := fun t _ => if t = .ext then .err else .ok () }

example : broken.world.os [0x61] = .ok (some ⟨.file, .ok 0⟩) ∧ HoldsContent broken.world [0x61] 0 (.raw (.partitions .mbr [.ext, .fat])) ∧
    ∀ p, broken.files .ext p = .err := by
  refine ⟨rfl, ⟨by decide +kernel, .inr ⟨rfl, by decide +kernel, by decide +kernel, by decide +kernel⟩, by decide,
    VfsParts.ofLayers .mbr [1, 2], rfl, rfl, rfl, ?_⟩, fun _ => rfl⟩
  intro i hi
  match i, hi with
  | 0, _ => exact ⟨1, rfl, by show broken.world.scan _ _ = _; decide +kernel⟩
  | 1, _ => exact ⟨2, rfl, by show broken.world.scan _ _ = _; decide +kernel⟩

end ImageHierarchyExample

end Keramics.Props
