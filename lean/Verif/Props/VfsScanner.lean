import Verif.Spec.VfsScanner
import Verif.Props.VfsParts

/-!
# C69: scanning a file for images, volume systems and file systems
-/

namespace Keramics.VfsScanner
open Vfs (VfsType Location)
open Spec (PartsKind Volume Disk Content codePoints partLocation rootLocation HoldsVolume HoldsDisk HoldsImage HoldsContent)
open VfsParts (System Entry)

variable {D : Type}

theorem decimal_eq (n : Nat) : VfsParts.decimal n = codePoints (toString n) := by
  show _ = codePoints (Nat.repr n)
  rw [Nat.repr_eq_ofList_toDigits, codePoints, String.toList_ofList]
  rfl

theorem isPartName (k : PartsKind) (i : Nat) : Spec.IsPartName k i (k.label ++ codePoints (toString (i + 1))) := by
  rw [← decimal_eq]
  obtain ⟨h1, h2⟩ := VfsParts.decimal_spec (i + 1)
  exact ⟨_, rfl, h1, h2 (by omega)⟩

/-- The path of a partition or layer. -/
theorem part_path (k : PartsKind) (i : Nat) :
    fromText k.type (pathPrefix k.type ++ VfsParts.decimal (i + 1)) = .vfs (.string [[], k.label ++ codePoints (toString (i + 1))]) := by
  obtain ⟨h1, h2⟩ := VfsParts.partName_slash (isPartName k i)
  have h := VfsParts.path_components _ h1 h2
  have e : pathPrefix k.type ++ VfsParts.decimal (i + 1) = 0x2f :: (k.label ++ codePoints (toString (i + 1))) := by
    rw [decimal_eq]
    cases k <;> rfl
  rw [e, ← h]
  cases k <;> rfl

theorem root_path (k : PartsKind) (location : Location ScanPath) : below location k.type = rootLocation k location := by
  cases k <;> rfl

/-- The data stream of a partition or layer. -/
theorem parts_stream (w : World D) (s : System D) (hn : s.number < 2 ^ 64) (h1 : s.kind.OneLayer → s.number = 1) (i : Nat) (hi : i < s.number)
    (d : D) (hd : s.get i = .ok d) :
    stream w (.parts s) (.vfs (.string [[], s.kind.label ++ codePoints (toString (i + 1))])) = .ok d := by
  have hidx := VfsParts.indexOf_name s hn h1 i hi _ (isPartName s.kind i)
  generalize s.kind.label ++ codePoints (toString (i + 1)) = nm at hidx ⊢
  simp [stream, dataStream, VfsParts.byPath, hidx, hd, VfsParts.dataStream]

/-- A file system is recognised. -/
def filesType : Volume → Option VfsType
  | .nothing => none
  | .ext => some .ext
  | .fat => some .fat
  | .ntfs => some .ntfs

theorem scanFileSystem_holds (w : World D) (d : D) (f : Volume) (h : HoldsVolume w d f) : scanFileSystem w d = .ok (filesType f) := by
  cases f <;> simp only [HoldsVolume] at h <;> simp [scanFileSystem, h, only, fileSystemType, filesType]

theorem formatNodes_files (w : World D) (fuel : Nat) (fs : FileSystem D) (location : Location ScanPath) (f : Volume) :
    formatNodes (subNodes w (fuel + 1)) fs location (filesType f) = .ok (f.nodes location) := by
  cases f <;> rfl

/-- The volume system of a disk. -/
def diskVolumes : Disk → Option VfsType
  | .files _ => none
  | .partitions k _ => some k.type

theorem scanVolumes_holds (w : World D) (d : D) (c : Disk) (h : HoldsDisk w d c) : scanVolumes w d = .ok (diskVolumes c) := by
  cases c with
  | files f =>
    obtain ⟨-, h1, h2 | h2 | ⟨h2, h3⟩⟩ := h
    · simp [scanVolumes, phase2, h1, h2, only, diskVolumes]
    · simp [scanVolumes, phase2, h1, h2, only, diskVolumes]
    · simp [scanVolumes, phase2, phase3, h1, h2, h3, only, diskVolumes]
  | partitions k ps =>
    obtain ⟨⟨hk | hk, h1⟩ | ⟨hk, h1, h2, h3⟩, -⟩ := h
    · subst hk; simp [scanVolumes, h1, only, diskVolumes, PartsKind.format, PartsKind.type]
    · subst hk; simp [scanVolumes, h1, only, diskVolumes, PartsKind.format, PartsKind.type]
    · subst hk; simp [scanVolumes, phase2, phase3, h1, h2, h3, only, diskVolumes, PartsKind.type]

/-- What is found on a disk. -/
def diskType : Disk → Option VfsType
  | .files f => filesType f
  | .partitions k _ => some k.type

theorem disk_type (w : World D) (d : D) (c : Disk) (h : HoldsDisk w d c) :
    orElse (diskVolumes c) (scanFileSystem w d) = .ok (diskType c) := by
  cases c with
  | files f => exact scanFileSystem_holds w d f h.1
  | partitions k ps => rfl

theorem mapM_range {α : Type} (n : Nat) (f : Nat → R α) (l : List α) (hl : l.length = n) (h : ∀ i (hi : i < l.length), f i = .ok l[i]) :
    (List.range n).mapM f = .ok l := by
  induction n generalizing f l with
  | zero =>
    match l, hl with
    | [], _ => rfl
  | succ n ih =>
    match l, hl with
    | a :: l, hl =>
      rw [List.range_succ_eq_map, List.mapM_cons, h 0 (by simp), List.mapM_map]
      have := ih (f ∘ Nat.succ) l (by simpa using hl) (fun i hi => h (i + 1) (Nat.succ_lt_succ hi))
      simp only [R.ok_bind, this]
      rfl

theorem mapM_range_err {α : Type} (n : Nat) (f : Nat → R α) (j : Nat) (hj : j < n) (he : f j = .err) (h : ∀ i, i < j → ∃ x, f i = .ok x) :
    (List.range n).mapM f = .err := by
  induction n generalizing f j with
  | zero => omega
  | succ n ih =>
    rw [List.range_succ_eq_map, List.mapM_cons, List.mapM_map]
    cases j with
    | zero => rw [he, R.err_bind]
    | succ j =>
      obtain ⟨x, hx⟩ := h 0 (by omega)
      rw [hx, R.ok_bind, ih (f ∘ Nat.succ) j (by omega) he (fun i hi => h (i + 1) (by omega)), R.err_bind]

theorem volumes_of (w : World D) (d : D) (k : PartsKind) (ps : List Volume) (h : HoldsDisk w d (.partitions k ps)) :
    k = .apm ∨ k = .gpt ∨ k = .mbr := by
  obtain ⟨⟨hk, -⟩ | ⟨hk, -⟩, -⟩ := h
  · rcases hk with hk | hk
    · exact .inl hk
    · exact .inr (.inl hk)
  · exact .inr (.inr hk)

/-- What opens a volume system. -/
theorem openIn_volumes (w : World D) (fs : FileSystem D) (path : ScanPath) (k : PartsKind) (hk : k = .apm ∨ k = .gpt ∨ k = .mbr) (d : D)
    (hd : stream w fs path = .ok d) : openIn w fs path k.type = w.volumes k d := by
  rcases hk with hk | hk | hk <;> subst hk <;> simp [openIn, PartsKind.type, hd]

theorem subNodes_volumes (w : World D) (fuel : Nat) (fs : FileSystem D) (location : Location ScanPath) (k : PartsKind)
    (hk : k = .apm ∨ k = .gpt ∨ k = .mbr) :
    subNodes w (fuel + 1) fs location k.type = (do
      let s ← openIn w fs (pathOf location) k.type
      volumeNodes (subNodes w fuel) w location k.type (pathPrefix k.type) s.number) := by
  rcases hk with hk | hk | hk <;> subst hk <;> rfl

theorem formatOf_part (w : World D) (k : PartsKind) (hk : k = .apm ∨ k = .gpt ∨ k = .mbr) (d : D) : formatOf w k.type d = scanFileSystem w d := by
  rcases hk with hk | hk | hk <;> subst hk <;> rfl

theorem oneLayer_volumes {k : PartsKind} (hk : k = .apm ∨ k = .gpt ∨ k = .mbr) : ¬ k.OneLayer := by
  rintro (h | h | h) <;> rw [h] at hk <;> simp at hk

/-- The turns of the loop over the partitions. -/
theorem volumeNode_holds (w : World D) (fuel : Nat) (location : Location ScanPath) (s : System D) (hk : s.kind = .apm ∨ s.kind = .gpt ∨ s.kind = .mbr)
    (hn : s.number < 2 ^ 64) (i : Nat) (hi : i < s.number) (p : D) (hp : s.get i = .ok p) (f : Volume) (hf : HoldsVolume w p f) :
    volumeNode (subNodes w (fuel + 1)) w (.parts s) location s.kind.type (pathPrefix s.kind.type) i =
      .ok (.node (partLocation s.kind (i + 1) location) (f.nodes (partLocation s.kind (i + 1) location))) := by
  have hs := parts_stream w s hn (fun h => absurd h (oneLayer_volumes hk)) i hi p hp
  simp only [volumeNode, part_path]
  have : scanFormat w (.parts s) (.layer (.vfs (.string [[], s.kind.label ++ codePoints (toString (i + 1))])) location s.kind.type) = .ok (filesType f) := by
    simp only [scanFormat, pathOf, hs, R.ok_bind]
    show formatOf w s.kind.type p = _
    rw [formatOf_part w s.kind hk, scanFileSystem_holds w p f hf]
  rw [this]
  simp only [R.ok_bind, formatNodes_files]
  rfl

/-- The nodes of a disk. -/
theorem disk_nodes (w : World D) (fuel : Nat) (fs : FileSystem D) (location : Location ScanPath) (d : D) (c : Disk)
    (hfs : openFileSystem w location = .ok fs) (hd : stream w fs (pathOf location) = .ok d) (h : HoldsDisk w d c) :
    formatNodes (subNodes w (fuel + 2)) fs location (diskType c) = .ok (c.nodes location) := by
  cases c with
  | files f => exact formatNodes_files w (fuel + 1) fs location f
  | partitions k ps =>
    have hk := volumes_of w d k ps h
    obtain ⟨-, hlen, s, hs, hsk, hsn, hparts⟩ := h
    subst hsk
    have hopen : openFileSystem w (below location s.kind.type) = .ok (.parts s) := by
      show (do
        let fs ← openFileSystem w location
        let s ← openIn w fs (pathOf location) s.kind.type
        pure (FileSystem.parts s)) = _
      rw [hfs, R.ok_bind, openIn_volumes w fs _ _ hk d hd, hs]
      rfl
    have hsub : subNodes w (fuel + 2) fs location s.kind.type = .ok (ps.mapIdx fun i f =>
        .node (partLocation s.kind (i + 1) location) (f.nodes (partLocation s.kind (i + 1) location))) := by
      rw [subNodes_volumes w (fuel + 1) fs location _ hk, openIn_volumes w fs _ _ hk d hd, hs, R.ok_bind, volumeNodes, hopen, R.ok_bind]
      apply mapM_range
      · simp [hsn]
      · intro i hi
        rw [List.length_mapIdx] at hi
        obtain ⟨p, hp, hf⟩ := hparts i hi
        rw [volumeNode_holds w fuel location s hk (by omega) i (by omega) p hp _ hf, List.getElem_mapIdx]
    simp only [diskType, formatNodes, hsub, R.ok_bind, root_path]
    rfl

/-- The images whose contents the scanner looks into. -/
theorem image_nodes (w : World D) (fuel : Nat) (path : List Nat) (k : PartsKind) (n : Nat) (c : Disk)
    (hk : k = .ewf ∨ k = .qcow ∨ k = .vhd ∨ k = .vhdx) (h : HoldsImage w .os (.os path) k n c) :
    subNodes w (fuel + 3) .os (.base (.os path) .os) k.type = .ok (c.nodes (partLocation k n (.base (.os path) .os))) := by
  obtain ⟨s, top, hs, hsk, hsn, h0, hn, h1, htop, hc⟩ := h
  have hopen : openIn w .os (.os path) k.type = .ok s := by
    rcases hk with hk | hk | hk | hk <;> subst hk <;> exact hs
  have hlayers : layers k.type s = n := by
    rcases hk with hk | hk | hk | hk <;> subst hk <;> first | exact hsn | exact (h1 (.inl rfl)).symm
  have hsub : subNodes w (fuel + 3) .os (.base (.os path) .os) k.type = (do
      let s ← openIn w .os (.os path) k.type
      imageNodes (subNodes w (fuel + 2)) w (.base (.os path) .os) k.type (pathPrefix k.type) (layers k.type s)) := by
    rcases hk with hk | hk | hk | hk <;> subst hk <;> rfl
  rw [hsub, hopen, R.ok_bind, hlayers]
  obtain ⟨m, rfl⟩ : ∃ m, n = m + 1 := ⟨n - 1, by omega⟩
  rw [Nat.add_sub_cancel] at htop
  subst hsk
  have hst := parts_stream w s (by omega) (by intro h; rw [hsn]; exact h1 h) m (by omega) top htop
  rw [imageNodes, if_neg (by omega)]
  simp only [part_path]
  have hfs : openFileSystem w (partLocation s.kind (m + 1) (.base (.os path) .os)) = .ok (.parts s) := by
    show (do
      let fs ← openFileSystem w (.base (.os path) .os)
      let s ← openIn w fs (.os path) s.kind.type
      pure (FileSystem.parts s)) = _
    rw [show openFileSystem w (.base (.os path) .os) = .ok .os from rfl, R.ok_bind, hopen]
    rfl
  have hfmt : scanFormat w (.parts s) (partLocation s.kind (m + 1) (.base (.os path) .os)) = .ok (diskType c) := by
    simp only [scanFormat, partLocation, pathOf, hst, R.ok_bind]
    show formatOf w s.kind.type top = _
    have : formatOf w s.kind.type top = (do
        let r ← scanVolumes w top
        orElse r (scanFileSystem w top)) := by
      rcases hk with hk | hk | hk | hk <;> rw [hk] <;> rfl
    rw [this, scanVolumes_holds w top c hc, R.ok_bind, disk_type w top c hc]
  show (do
    let fs ← openFileSystem w (partLocation s.kind (m + 1) (.base (.os path) .os))
    let t ← scanFormat w fs (partLocation s.kind (m + 1) (.base (.os path) .os))
    formatNodes (subNodes w (fuel + 2)) fs (partLocation s.kind (m + 1) (.base (.os path) .os)) t) = _
  rw [hfs, R.ok_bind, hfmt, R.ok_bind]
  exact disk_nodes w fuel _ _ top c hfs hst hc

theorem os_stream (w : World D) (path : List Nat) (d : D) (hos : w.os path = .ok (some ⟨.file, .ok d⟩)) : stream w .os (.os path) = .ok d := by
  simp [stream, dataStream, hos]

theorem scan_file (w : World D) (fuel : Nat) (path : List Nat) (d : D) (hos : w.os path = .ok (some ⟨.file, .ok d⟩)) :
    scan w fuel (.base (.os path) .os) = (do
      let subs ← subNodes w fuel .os (.base (.os path) .os) .os
      pure (Node.node (.base (.os path) .os) subs)) := by
  simp only [scan, openFileSystem, if_true, R.ok_bind, fileType, pathOf, hos, R.pure_eq, Option.map_some]
  rfl

theorem subNodes_os (w : World D) (fuel : Nat) (path : List Nat) (d : D) (hos : w.os path = .ok (some ⟨.file, .ok d⟩)) :
    subNodes w (fuel + 1) .os (.base (.os path) .os) .os = (do
      let t ← formatOf w .os d
      formatNodes (subNodes w fuel) .os (.base (.os path) .os) t) := by
  show (do
    let t ← scanFormat w .os (.base (.os path) .os)
    formatNodes (subNodes w fuel) .os (.base (.os path) .os) t) = _
  rw [scanFormat]
  simp only [pathOf, os_stream w path d hos, R.ok_bind]
  rfl

end Keramics.VfsScanner

namespace Keramics.Props
open Keramics.Spec VfsScanner
open Vfs (VfsType Location)

variable {D : Type}

/-- C69, for files that are EWF, QCOW, VHD or VHDX images or no images: scanning a file gives its content as a tree of nodes: the
volume system and file systems of the disk, below the node of the image whose last layer it is. Missing: sparse images and UDIF
images, which cannot be scanned (`C69_violated_image`), and partitions that cannot be recognised, which make the whole scan fail
(`C69_violated_partition`). `fuel` bounds the depth of the calls. -/
theorem C69_scan_partial (w : World D) (fuel : Nat) (path : List Nat) (d : D) (c : Content) (hos : w.os path = .ok (some ⟨.file, .ok d⟩))
    (h : HoldsContent w path d c) (hk : ∀ k n v, c = .image k n v → k = .ewf ∨ k = .qcow ∨ k = .vhd ∨ k = .vhdx) :
    scan w (fuel + 4) (.base (.os path) .os) = .ok (.node (.base (.os path) .os) (c.nodes (.base (.os path) .os))) := by
  rw [scan_file w _ path d hos, subNodes_os w _ path d hos]
  cases c with
  | raw v =>
    obtain ⟨h1, h2⟩ := h
    have : formatOf w .os d = .ok (diskType v) := by
      simp only [formatOf, scanImage, h1, R.ok_bind, only, imageType, orElse, scanVolumes_holds w d v h2]
      exact disk_type w d v h2
    rw [this, R.ok_bind, disk_nodes w (fuel + 1) .os (.base (.os path) .os) d v rfl (os_stream w path d hos) h2]
    rfl
  | image k n v =>
    obtain ⟨h1, h2⟩ := h
    have hk := hk k n v rfl
    have : formatOf w .os d = .ok (some k.type) := by
      rcases hk with hk | hk | hk | hk <;> subst hk <;>
        simp [formatOf, scanImage, h1, only, imageType, orElse, PartsKind.format, PartsKind.type]
    rw [this, R.ok_bind]
    simp only [formatNodes, image_nodes w fuel path k n v hk h2, R.ok_bind, root_path]
    rfl

/-- C69 does not hold in full: a sparse image or UDIF image that is recognised and can be opened cannot be scanned, whatever it holds. -/
theorem C69_violated_image (w : World D) (fuel : Nat) (path : List Nat) (d : D) (k : PartsKind) (hk : k = .sparseImage ∨ k = .udif) (v : Disk)
    (hos : w.os path = .ok (some ⟨.file, .ok d⟩)) (h : HoldsContent w path d (.image k 1 v)) :
    scan w (fuel + 4) (.base (.os path) .os) = .err := by
  obtain ⟨h1, s, top, hs, hsk, hsn, -, -, -, htop, -⟩ := h
  have hone : s.kind.OneLayer := by rw [hsk]; rcases hk with hk | hk <;> simp [PartsKind.OneLayer, hk]
  rw [scan_file w _ path d hos, subNodes_os w _ path d hos]
  have : formatOf w .os d = .ok (some k.type) := by
    rcases hk with hk | hk <;> subst hk <;>
      simp [formatOf, scanImage, h1, only, imageType, orElse, PartsKind.format, PartsKind.type]
  rw [this, R.ok_bind]
  have hopen : openIn w .os (.os path) k.type = .ok s := by rcases hk with hk | hk <;> subst hk <;> exact hs
  have hsub : subNodes w (fuel + 3) .os (.base (.os path) .os) k.type = (do
      let s ← openIn w .os (.os path) k.type
      imageNodes (subNodes w (fuel + 2)) w (.base (.os path) .os) k.type (pathPrefix k.type) 1) := by
    rcases hk with hk | hk <;> subst hk <;> rfl
  have hst := parts_stream w s (by omega) (fun _ => hsn) 0 (by omega) top htop
  have herr : subNodes w (fuel + 3) .os (.base (.os path) .os) k.type = .err := by
    rw [hsub, hopen, R.ok_bind, imageNodes, if_neg (by omega)]
    have hfs : openFileSystem w (partLocation k 1 (.base (.os path) .os)) = .ok (.parts s) := by
      show (do
        let fs ← openFileSystem w (.base (.os path) .os)
        let s ← openIn w fs (.os path) k.type
        pure (FileSystem.parts s)) = _
      rw [show openFileSystem w (.base (.os path) .os) = .ok .os from rfl, R.ok_bind, hopen]
      rfl
    have hfmt : scanFormat w (.parts s) (partLocation k 1 (.base (.os path) .os)) = .err := by
      rw [hsk] at hst
      simp only [scanFormat, partLocation, pathOf, hst, R.ok_bind]
      rcases hk with hk | hk <;> subst hk <;> rfl
    have hp := part_path k 0
    simp only [Nat.zero_add] at hp
    simp only [hp]
    show (do
      let fs ← openFileSystem w (partLocation k 1 (.base (.os path) .os))
      let t ← scanFormat w fs (partLocation k 1 (.base (.os path) .os))
      formatNodes (subNodes w (fuel + 2)) fs (partLocation k 1 (.base (.os path) .os)) t) = _
    rw [hfs, R.ok_bind, hfmt, R.err_bind]
  simp only [formatNodes, herr, R.err_bind]

/-- C69 does not hold in full: one partition in which more than one file system is recognised makes the scan of the whole disk fail,
although the partitions before it hold file systems that are recognised, and whatever those behind it hold. -/
theorem C69_violated_partition (w : World D) (fuel : Nat) (path : List Nat) (d : D) (k : PartsKind) (hk : k = .apm ∨ k = .gpt)
    (hos : w.os path = .ok (some ⟨.file, .ok d⟩)) (h0 : w.scan [.ewf, .qcow, .sparseImage, .udif, .vhd, .vhdx] d = .ok [])
    (h1 : w.scan [.apm, .gpt] d = .ok [k.format]) (s : VfsParts.System D) (hs : w.volumes k d = .ok s) (hsk : s.kind = k) (hn : s.number < 2 ^ 64)
    (j : Nat) (hj : j < s.number) (hbefore : ∀ i, i < j → ∃ p f, s.get i = .ok p ∧ HoldsVolume w p f)
    (p : D) (hp : s.get j = .ok p) (f g : Sigscan.Format) (rest : List Sigscan.Format) (hf : w.scan [.ext, .fat, .ntfs] p = .ok (f :: g :: rest)) :
    scan w (fuel + 4) (.base (.os path) .os) = .err := by
  have hk3 : k = .apm ∨ k = .gpt ∨ k = .mbr := by
    rcases hk with hk | hk
    · exact .inl hk
    · exact .inr (.inl hk)
  have hd := os_stream w path d hos
  subst hsk
  rw [scan_file w _ path d hos, subNodes_os w _ path d hos]
  have : formatOf w .os d = .ok (some s.kind.type) := by
    rcases hk with hk | hk <;> rw [hk] at h1 ⊢ <;>
      simp [formatOf, scanImage, scanVolumes, h0, h1, only, imageType, orElse, PartsKind.format, PartsKind.type]
  rw [this, R.ok_bind]
  have hopen : openFileSystem w (below (.base (.os path) .os) s.kind.type) = .ok (.parts s) := by
    show (do
      let fs ← openFileSystem w (.base (.os path) .os)
      let s ← openIn w fs (.os path) s.kind.type
      pure (FileSystem.parts s)) = _
    rw [show openFileSystem w (.base (.os path) .os) = .ok .os from rfl, R.ok_bind, openIn_volumes w .os _ _ hk3 d hd, hs]
    rfl
  have herr : subNodes w (fuel + 3) .os (.base (.os path) .os) s.kind.type = .err := by
    rw [subNodes_volumes w (fuel + 2) .os _ _ hk3, pathOf, openIn_volumes w .os _ _ hk3 d hd, hs, R.ok_bind, volumeNodes, hopen, R.ok_bind]
    apply mapM_range_err s.number _ j hj
    · have hst := parts_stream w s hn (fun h => absurd h (oneLayer_volumes hk3)) j hj p hp
      simp only [volumeNode, part_path]
      have : scanFormat w (.parts s) (.layer (.vfs (.string [[], s.kind.label ++ codePoints (toString (j + 1))])) (.base (.os path) .os) s.kind.type) = .err := by
        simp only [scanFormat, pathOf, hst, R.ok_bind]
        show formatOf w s.kind.type p = _
        rw [formatOf_part w s.kind hk3]
        simp [scanFileSystem, hf, only]
      rw [this, R.err_bind]
    · intro i hi
      obtain ⟨q, v, hq, hv⟩ := hbefore i hi
      exact ⟨_, volumeNode_holds w (fuel + 1) (.base (.os path) .os) s hk3 hn i (by omega) q hq v hv⟩
  simp only [formatNodes, herr, R.err_bind]

/-- C69: what is not there, or is no file, is not scanned. -/
theorem C69_refused (w : World D) (fuel : Nat) (path : List Nat) :
    (w.os path = .ok none → scan w fuel (.base (.os path) .os) = .err) ∧
    (∀ e, w.os path = .ok (some e) → e.type ≠ .file → scan w fuel (.base (.os path) .os) = .err) := by
  constructor
  · intro h
    simp [scan, openFileSystem, fileType, pathOf, h]
  · intro e h he
    simp only [scan, openFileSystem, if_true, R.ok_bind, fileType, pathOf, h, R.pure_eq, Option.map_some]
    cases ht : e.type with
    | file => exact absurd ht he
    | device => rfl
    | other => rfl

namespace VfsScannerExample

/-- A file that is a QCOW image with two layers, the last of which has a GPT with a FAT and an NTFS volume and one that is empty. Data
streams are numbers: 0 is the file, 1 and 2 are the layers, 3 to 5 are the volumes. -/
def world : World Nat where
  scan := fun formats d =>
    .ok (formats.filter fun f => (d = 0 ∧ f = .qcow) ∨ (d = 2 ∧ f = .gpt) ∨ (d = 3 ∧ f = .fat) ∨ (d = 4 ∧ f = .ntfs))
  volumes := fun k d => if k = .gpt ∧ d = 2 then .ok (VfsParts.ofLayers .gpt [3, 4, 5]) else .err
  image := fun k _ path => if k = .qcow ∧ path = .os [0x61] then .ok (VfsParts.ofLayers .qcow [1, 2]) else .err
  os := fun path => .ok (if path = [0x61] then some ⟨.file, .ok 0⟩ else none)

/-- What the file holds. -/
def content : Content := .image .qcow 2 (.partitions .gpt [.fat, .ntfs, .nothing])

example : world.os [0x61] = .ok (some ⟨.file, .ok 0⟩) ∧ HoldsContent world [0x61] 0 content := by
  refine ⟨rfl, by decide +kernel, VfsParts.ofLayers .qcow [1, 2], 2, rfl, rfl, rfl, by decide, by decide, ?_, rfl, ?_⟩
  · rintro (h | h | h) <;> cases h
  · refine ⟨.inl ⟨.inr rfl, by decide +kernel⟩, by decide, VfsParts.ofLayers .gpt [3, 4, 5], rfl, rfl, rfl, ?_⟩
    intro i hi
    match i, hi with
    | 0, _ => exact ⟨3, rfl, by show world.scan _ _ = _; decide +kernel⟩
    | 1, _ => exact ⟨4, rfl, by show world.scan _ _ = _; decide +kernel⟩
    | 2, _ => exact ⟨5, rfl, by show world.scan _ _ = _; decide +kernel⟩

/-- The same as a sparse image. -/
def sparse : World Nat :=
  { world with
    scan := fun formats d => if d = 0 then .ok (formats.filter (· = .sparseImage)) else world.scan formats d
    image := fun k _ path => if k = .sparseImage ∧ path = .os [0x61] then .ok (VfsParts.ofLayers .sparseImage [2]) else .err }

example : sparse.os [0x61] = .ok (some ⟨.file, .ok 0⟩) ∧ HoldsContent sparse [0x61] 0 (.image .sparseImage 1 (.partitions .gpt [.fat, .ntfs, .nothing])) := by
  refine ⟨rfl, by decide +kernel, VfsParts.ofLayers .sparseImage [2], 2, rfl, rfl, rfl, by decide, by decide, fun _ => rfl, rfl, ?_⟩
  refine ⟨.inl ⟨.inr rfl, by decide +kernel⟩, by decide, VfsParts.ofLayers .gpt [3, 4, 5], rfl, rfl, rfl, ?_⟩
  intro i hi
  match i, hi with
  | 0, _ => exact ⟨3, rfl, by show sparse.scan _ _ = _; decide +kernel⟩
  | 1, _ => exact ⟨4, rfl, by show sparse.scan _ _ = _; decide +kernel⟩
  | 2, _ => exact ⟨5, rfl, by show sparse.scan _ _ = _; decide +kernel⟩

/-- A disk whose second volume is recognised as FAT and as NTFS. -/
def twice : World Nat :=
  { world with
    scan := fun formats d =>
      .ok (formats.filter fun f => (d = 0 ∧ f = .gpt) ∨ (d = 3 ∧ f = .fat) ∨ (d = 4 ∧ (f = .fat ∨ f = .ntfs)))
    volumes := fun k d => if k = .gpt ∧ d = 0 then .ok (VfsParts.ofLayers .gpt [3, 4, 5]) else .err }

example : twice.scan [.apm, .gpt] 0 = .ok [.gpt] ∧ twice.volumes .gpt 0 = .ok (VfsParts.ofLayers .gpt [3, 4, 5]) ∧
    HoldsVolume twice 3 .fat ∧ twice.scan [.ext, .fat, .ntfs] 4 = .ok [.fat, .ntfs] := by
  refine ⟨by decide +kernel, rfl, ?_, by decide +kernel⟩
  show twice.scan _ _ = _
  decide +kernel

end VfsScannerExample

end Keramics.Props
