import Verif.Spec.ExportTool
import Verif.Spec.HashTool
import Verif.Props.VfsScanner

/-!
# C77: the export tool writes the data stream that was asked for
-/

namespace Keramics.ExportTool
open Spec
open Vfs (Location)
open VfsScanner (ScanPath Node)

variable {S : Type} (c : Config S) (fuel : Nat) (components : List (List Nat)) (name : Option (List Nat))

/-- One location after the other. -/
def exportAll (t : Target) : List (Location ScanPath) → Target × R Unit
  | [] => (t, .ok ())
  | location :: rest => andThen (match c.lookup location name with
      | .ok (some s) => writeStream c fuel t s
      | .ok none => (t, .ok ())
      | .err => (t, .err)
      | .panic => (t, .panic)) fun t => exportAll t rest

theorem andThen_ok (a : Target × R Unit) : andThen a (fun t => (t, .ok ())) = a := by
  unfold andThen
  obtain ⟨t, r⟩ := a
  cases r <;> rfl

theorem andThen_assoc (a : Target × R Unit) (f g : Target → Target × R Unit) : andThen (andThen a f) g = andThen a fun t => andThen (f t) g := by
  obtain ⟨t, r⟩ := a
  cases r <;> rfl

theorem exportAll_append (t : Target) (xs ys : List (Location ScanPath)) :
    exportAll c fuel name t (xs ++ ys) = andThen (exportAll c fuel name t xs) fun t => exportAll c fuel name t ys := by
  induction xs generalizing t with
  | nil => rfl
  | cons x xs ih =>
    rw [List.cons_append, exportAll, exportAll, andThen_assoc]
    simp only [ih]

theorem exportLeaf_one (t : Target) (location : Location ScanPath) :
    exportLeaf c fuel components name t location = exportAll c fuel name t [newWithParent (fromComponents location.type components) location] := by
  simp only [exportAll, exportLeaf]
  rw [andThen_ok]
  rfl

theorem exportNodes_one (t : Target) (n : Node) : exportNodes c fuel components name t [n] = exportNode c fuel components name t n := by
  rw [exportNodes]
  simp only [exportNodes]
  exact andThen_ok _

theorem exportNode_subs (t : Target) (location : Location ScanPath) (subs : List Node) (h : subs ≠ []) :
    exportNode c fuel components name t (.node location subs) = exportNodes c fuel components name t subs := by
  cases subs with
  | nil => exact absurd rfl h
  | cons s subs => rw [exportNode, exportNodes]

theorem volume_export (t : Target) (location : Location ScanPath) (f : Volume) :
    exportNodes c fuel components name t (f.nodes location) = exportAll c fuel name t (f.asked components location).toList := by
  cases f with
  | nothing => rfl
  | ext => rw [Volume.nodes, exportNodes_one, exportNode, exportLeaf_one]; rfl
  | fat => rw [Volume.nodes, exportNodes_one, exportNode, exportLeaf_one]; rfl
  | ntfs => rw [Volume.nodes, exportNodes_one, exportNode, exportLeaf_one]; rfl

theorem parts_asked (k : PartsKind) (path : ScanPath) (location : Location ScanPath) :
    newWithParent (fromComponents k.type components) (.layer path location k.type) = k.asked components location := by
  cases k <;> rfl

theorem part_export (t : Target) (k : PartsKind) (i : Nat) (location : Location ScanPath) (f : Volume) :
    exportNode c fuel components name t (.node (partLocation k i location) (f.nodes (partLocation k i location)))
      = exportAll c fuel name t [(f.asked components (partLocation k i location)).getD (k.asked components location)] := by
  cases hf : f with
  | nothing =>
    rw [Volume.nodes, exportNode, exportLeaf_one]
    simp only [Volume.asked, Option.getD_none]
    rw [← parts_asked components k (.vfs (.string [[], k.label ++ codePoints (toString i)])) location]
    rfl
  | ext => rw [exportNode_subs _ _ _ _ _ _ _ (by simp [Volume.nodes]), volume_export]; rfl
  | fat => rw [exportNode_subs _ _ _ _ _ _ _ (by simp [Volume.nodes]), volume_export]; rfl
  | ntfs => rw [exportNode_subs _ _ _ _ _ _ _ (by simp [Volume.nodes]), volume_export]; rfl

theorem parts_export (t : Target) (k : PartsKind) (off : Nat) (location : Location ScanPath) (ps : List Volume) :
    exportNodes c fuel components name t (ps.mapIdx fun i f => .node (partLocation k (i + off + 1) location) (f.nodes (partLocation k (i + off + 1) location)))
      = exportAll c fuel name t (ps.mapIdx fun i f => (f.asked components (partLocation k (i + off + 1) location)).getD (k.asked components location)) := by
  induction ps generalizing off t with
  | nil => rfl
  | cons f ps ih =>
    simp only [List.mapIdx_cons, Nat.zero_add]
    have e : ∀ i, i + 1 + off + 1 = i + (off + 1) + 1 := fun i => by omega
    simp only [e]
    rw [exportNodes, part_export]
    conv => rhs; rw [← List.singleton_append, exportAll_append]
    simp only [ih]

theorem disk_export (t : Target) (location : Location ScanPath) (d : Disk) :
    exportNodes c fuel components name t (d.nodes location) = exportAll c fuel name t (d.asked components location) := by
  cases d with
  | files f => exact volume_export c fuel components name t location f
  | partitions k ps =>
    rw [Disk.nodes, exportNodes_one]
    by_cases h : ps = []
    · subst h
      simp only [List.mapIdx_nil, Disk.asked, if_true]
      rw [exportNode, exportLeaf_one, ← parts_asked components k (.vfs (.string [[]])) location]
      rfl
    · rw [exportNode_subs _ _ _ _ _ _ _ (by simpa using h), Disk.asked, if_neg h]
      exact parts_export c fuel components name t k 0 location ps

theorem disk_asked_nil (location : Location ScanPath) (d : Disk) : d.nodes location = [] ↔ d.asked components location = [] := by
  cases d with
  | files f => cases f <;> simp [Disk.nodes, Disk.asked, Volume.nodes, Volume.asked]
  | partitions k ps =>
    by_cases h : ps = [] <;> simp [Disk.nodes, Disk.asked, h]

theorem content_export (t : Target) (location : Location ScanPath) (x : Content) :
    exportNodes c fuel components name t (x.nodes location) = exportAll c fuel name t (x.asked components location) := by
  cases x with
  | raw d => exact disk_export c fuel components name t location d
  | image k n d =>
    rw [Content.nodes, exportNodes_one, Content.asked]
    have hnil := disk_asked_nil components (partLocation k n location) d
    by_cases h : d.asked components (partLocation k n location) = []
    · rw [if_pos h, hnil.2 h, exportNode, exportLeaf_one, ← parts_asked components k (.vfs (.string [[]])) location]
      rfl
    · rw [if_neg h, exportNode_subs _ _ _ _ _ _ _ fun e => h (hnil.1 e), disk_export]

/-- The loop over a data stream. -/
theorem copyLoop_spec (data : List Byte) (position : S → Nat → Prop)
    (hr : ∀ s p n, position s p → ∃ out s', c.read s n = .ok (out, s') ∧ readOk false data data.length p n out ∧ position s' (p + out.length))
    (s : S) (p : Nat) (hp : position s p) (hl : p ≤ data.length) (hf : data.length - p < fuel) :
    (copyLoop c fuel (data.take p) s).2 ≠ .panic ∧ ((copyLoop c fuel (data.take p) s).2 = .ok () → (copyLoop c fuel (data.take p) s).1 = data) ∧
      ((∀ file d, c.write file d = some d.length) → (copyLoop c fuel (data.take p) s).2 = .ok ()) := by
  induction fuel generalizing s p with
  | zero => omega
  | succ fuel ih =>
    obtain ⟨out, s', h1, h2, h3⟩ := hr s p 65536 hp
    rw [copyLoop, h1]
    simp only
    unfold readOk at h2
    by_cases ho : out.length = 0
    · rw [if_pos ho]
      have hend : p = data.length := by
        by_contra hne
        rw [if_pos (by omega)] at h2
        exact h2.2.1 (by decide) (by rw [Int.toNat_natCast]; omega) (List.length_eq_zero_iff.1 ho)
      refine ⟨by simp, fun _ => ?_, fun _ => rfl⟩
      simp [hend]
    · rw [if_neg ho]
      have hlt : p < data.length := by
        by_contra hge
        rw [if_neg (by omega)] at h2
        simp [h2] at ho
      rw [if_pos (by omega), Int.toNat_natCast] at h2
      have hpre := h2.1.trans (List.take_prefix _ _)
      have hlen : p + out.length ≤ data.length := by
        have := hpre.length_le
        rw [List.length_drop] at this
        omega
      have htake : data.take p ++ out = data.take (p + out.length) := by
        obtain ⟨rest, hrest⟩ := hpre
        rw [List.take_add, ← hrest, List.take_left']
        rfl
      cases hw : c.write (data.take p) out with
      | none =>
        refine ⟨by simp, by simp, fun h => ?_⟩
        rw [h] at hw
        cases hw
      | some count =>
        simp only
        by_cases hc : count ≠ out.length
        · rw [if_pos hc]
          refine ⟨by simp, by simp, fun h => ?_⟩
          rw [h] at hw
          exact absurd (Option.some.inj hw).symm hc
        · rw [if_neg hc, not_not.1 hc, List.take_length, htake]
          exact ih s' (p + out.length) h3 hlen (by omega)

theorem writeStream_spec (t : Target) (s : S) (data : List Byte) (h : ReadsAs c.read s data) (hf : 2 ^ 64 ≤ fuel) :
    (writeStream c fuel t s).2 ≠ .panic ∧ ((writeStream c fuel t s).2 = .ok () → (writeStream c fuel t s).1 = ⟨some data, t.written + 1⟩) ∧
      (c.create = true → (∀ file d, c.write file d = some d.length) → (writeStream c fuel t s).2 = .ok ()) := by
  obtain ⟨hl, position, h0, hr⟩ := h
  obtain ⟨h1, h2, h3⟩ := copyLoop_spec c fuel data position hr s 0 h0 (by omega) (by omega)
  rw [List.take_zero] at h1 h2 h3
  unfold writeStream
  cases c.create with
  | false => simp
  | true =>
    simp only [if_true]
    generalize copyLoop c fuel [] s = a at *
    obtain ⟨file, r⟩ := a
    cases r with
    | ok u => exact ⟨by simp, fun _ => by rw [show file = data from h2 rfl], fun _ _ => rfl⟩
    | err => exact ⟨by simp, by simp, fun _ h => by have := h3 h; cases this⟩
    | panic => exact absurd rfl h1

theorem exportAll_spec (contents : Location ScanPath → Option (List Byte)) (hf : 2 ^ 64 ≤ fuel) (xs : List (Location ScanPath))
    (hg : ∀ x ∈ xs, Gives c.read (c.lookup x name) (contents x)) (t : Target) :
    (exportAll c fuel name t xs).2 ≠ .panic ∧
      ((exportAll c fuel name t xs).2 = .ok () → (exportAll c fuel name t xs).1 =
        ⟨((xs.filterMap contents).getLast?).or t.file, t.written + (xs.filterMap contents).length⟩) ∧
      (c.create = true → (∀ file d, c.write file d = some d.length) → (exportAll c fuel name t xs).2 = .ok ()) := by
  induction xs generalizing t with
  | nil => simp [exportAll]
  | cons x xs ih =>
    have hrest := ih fun y hy => hg y (List.mem_cons_of_mem _ hy)
    have hx := hg x (by simp)
    rw [exportAll]
    cases hc : contents x with
    | none =>
      rw [hc] at hx
      simp only [Gives] at hx
      rw [hx]
      simp only [andThen, List.filterMap_cons, hc]
      exact hrest t
    | some data =>
      rw [hc] at hx
      obtain ⟨s, h1, h2⟩ := hx
      rw [h1]
      obtain ⟨h3, h4, h5⟩ := writeStream_spec c fuel t s data h2 hf
      simp only [List.filterMap_cons, hc]
      generalize hws : writeStream c fuel t s = a at *
      obtain ⟨t', r⟩ := a
      cases r with
      | ok u =>
        obtain ⟨h6, h7, h8⟩ := hrest t'
        simp only [andThen]
        refine ⟨h6, fun h => ?_, h8⟩
        rw [h7 h, show t' = ⟨some data, t.written + 1⟩ from h4 rfl]
        simp only [Target.mk.injEq]
        constructor
        · cases hl : xs.filterMap contents with
          | nil => rfl
          | cons y ys => rw [List.getLast?_cons_cons]; cases hy : (y :: ys).getLast? with
            | none => simp at hy
            | some z => rfl
        · rw [List.length_cons]
          omega
      | err => exact ⟨by simp [andThen], by simp [andThen], fun h h' => by have := h5 h h'; cases this⟩
      | panic => exact absurd rfl h3

end Keramics.ExportTool

namespace Keramics.Props
open Spec ExportTool
open Vfs (Location)
open VfsScanner (ScanPath)

variable {S D : Type}

/-- C77: the export tool, run on a file that the scanner can scan, ends, and if it succeeds the output file holds exactly the contents of
the data stream with the path and name, however reads come short; if none has them, no file is written or changed. It does succeed if
the output file can be written. Missing: with more than one volume that has the path only the data stream of the last is kept
(`C77_violated_overwrite`); writes must not come short (`C77_violated_short`). -/
theorem C77_export_partial (w : VfsScanner.World D) (depth : Nat) (source : List Nat) (d : D) (content : Content)
    (hos : w.os source = .ok (some ⟨.file, .ok d⟩)) (hw : HoldsContent w source d content)
    (hk : ∀ k n x, content = .image k n x → k = .ewf ∨ k = .qcow ∨ k = .vhd ∨ k = .vhdx)
    (hne : content.nodes (.base (.os source) .os) ≠ [])
    (c : Config S) (path : List Nat) (name : Option (List Nat)) (contents : Location ScanPath → Option (List Byte))
    (hg : ∀ location ∈ content.asked (Path.splitText 0x2f path) (.base (.os source) .os), Gives c.read (c.lookup location name) (contents location)) :
    ∃ node, VfsScanner.scan w (depth + 4) (.base (.os source) .os) = .ok node ∧ ∀ fuel, 2 ^ 64 ≤ fuel → ∀ t t' r, tool c fuel path name t node = (t', r) →
      r ≠ .panic ∧
      (r = .ok () → t' = ⟨(((content.asked (Path.splitText 0x2f path) (.base (.os source) .os)).filterMap contents).getLast?).or t.file,
        t.written + ((content.asked (Path.splitText 0x2f path) (.base (.os source) .os)).filterMap contents).length⟩) ∧
      (c.create = true → (∀ file bytes, c.write file bytes = some bytes.length) → r = .ok ()) := by
  refine ⟨_, C69_scan_partial w depth source d content hos hw hk, fun fuel hf t t' r h => ?_⟩
  have htool : tool c fuel path name t (.node (.base (.os source) .os) (content.nodes (.base (.os source) .os)))
      = exportAll c fuel name t (content.asked (Path.splitText 0x2f path) (.base (.os source) .os)) := by
    rw [← content_export, ← exportNode_subs c fuel _ name t (.base (.os source) .os) _ hne]
    generalize content.nodes (.base (.os source) .os) = subs at hne
    cases subs with
    | nil => exact absurd rfl hne
    | cons s subs => rfl
  have := exportAll_spec c fuel name contents hf _ hg t
  rw [← htool, h] at this
  exact this

/-- C77: a data stream of which a read fails makes the tool fail, and is not counted. -/
theorem C77_unreadable (c : Config S) (path : List Nat) (name : Option (List Nat)) (k : PartsKind) (f : Volume) (more : List Volume) (location x : Location ScanPath)
    (hx : f.asked (Path.splitText 0x2f path) (partLocation k 1 location) = some x) (s : S) (hs : c.lookup x name = .ok (some s)) (n : Nat)
    (h : FailsAfter c.read s n) (fuel : Nat) (hf : n < fuel) (t : Target) :
    ∃ file, tool c fuel path name t (.node location ((Disk.partitions k (f :: more)).nodes location)) = (⟨file, t.written⟩, .err) := by
  have hcopy : ∀ file fuel, n < fuel → ∃ file', copyLoop c fuel file s = (file', .err) := by
    clear hs
    induction h with
    | now h =>
      intro file fuel hf
      obtain ⟨fuel, rfl⟩ : ∃ k, fuel = k + 1 := ⟨fuel - 1, by omega⟩
      exact ⟨file, by rw [copyLoop, h]⟩
    | @later s out s' k h1 h2 _ ih =>
      intro file fuel hf
      obtain ⟨fuel, rfl⟩ : ∃ k, fuel = k + 1 := ⟨fuel - 1, by omega⟩
      have hpos : 0 < out.length := List.length_pos_iff.2 h2
      rw [copyLoop, h1]
      simp only
      rw [if_neg (by omega)]
      cases c.write file out with
      | none => exact ⟨_, rfl⟩
      | some count =>
        simp only
        split
        · exact ⟨_, rfl⟩
        · exact ih (by omega) _ fuel (by omega)
  have htool : tool c fuel path name t (.node location ((Disk.partitions k (f :: more)).nodes location))
      = exportAll c fuel name t ((Disk.partitions k (f :: more)).asked (Path.splitText 0x2f path) location) := by
    rw [← disk_export, ← exportNode_subs c fuel _ name t location _ (by simp [Disk.nodes])]
    rfl
  rw [htool, Disk.asked, if_neg (by simp)]
  simp only [List.mapIdx_cons, Nat.zero_add, hx, Option.getD_some, exportAll, hs]
  have hwrite : ∃ file, writeStream c fuel t s = (⟨file, t.written⟩, .err) := by
    unfold writeStream
    split
    · obtain ⟨file, hc⟩ := hcopy [] fuel hf
      rw [hc]
      exact ⟨_, rfl⟩
    · exact ⟨_, rfl⟩
  obtain ⟨file, hwrite⟩ := hwrite
  exact ⟨file, by rw [hwrite]; rfl⟩

/-- C77: a source in which nothing is found makes the tool fail. -/
theorem C77_nothing (w : VfsScanner.World D) (depth : Nat) (source : List Nat) (d : D) (hos : w.os source = .ok (some ⟨.file, .ok d⟩))
    (hw : HoldsContent w source d (.raw (.files .nothing))) (c : Config S) (fuel : Nat) (path : List Nat) (name : Option (List Nat)) (t : Target) :
    ∃ node, VfsScanner.scan w (depth + 4) (.base (.os source) .os) = .ok node ∧ tool c fuel path name t node = (t, .err) :=
  ⟨_, C69_scan_partial w depth source d _ hos hw (by intro k n x h; cases h), rfl⟩

/-- C77 does not hold in full: with two volumes that have the path, the tool succeeds and has written two data streams, but only that of
the second is kept. -/
theorem C77_violated_overwrite (c : Config S) (name : Option (List Nat)) (fuel : Nat) (hf : 2 ^ 64 ≤ fuel) (location : Location ScanPath) (path : List Nat) (k : PartsKind) (f g : Volume)
    (a b : List Byte) (_hab : a ≠ b) (hcreate : c.create = true) (hwrite : ∀ file bytes, c.write file bytes = some bytes.length)
    (x y : Location ScanPath) (hx : f.asked (Path.splitText 0x2f path) (partLocation k 1 location) = some x)
    (hy : g.asked (Path.splitText 0x2f path) (partLocation k 2 location) = some y)
    (ha : Gives c.read (c.lookup x name) (some a)) (hb : Gives c.read (c.lookup y name) (some b)) (t : Target) :
    tool c fuel path name t (.node location ((Disk.partitions k [f, g]).nodes location)) = (⟨some b, t.written + 2⟩, .ok ()) := by
  have htool : tool c fuel path name t (.node location ((Disk.partitions k [f, g]).nodes location)) = exportAll c fuel name t [x, y] := by
    have : (Disk.partitions k [f, g]).asked (Path.splitText 0x2f path) location = [x, y] := by
      simp [Disk.asked, hx, hy]
    rw [← this, ← disk_export, ← exportNode_subs c fuel _ name t location _ (by simp [Disk.nodes])]
    rfl
  rw [htool]
  obtain ⟨s, h1, h2⟩ := ha
  obtain ⟨s', h3, h4⟩ := hb
  have e : ∀ t s data, ReadsAs c.read s data → writeStream c fuel t s = (⟨some data, t.written + 1⟩, .ok ()) := by
    intro t s data h
    obtain ⟨-, h6, h7⟩ := writeStream_spec c fuel t s data h hf
    exact Prod.ext (h6 (h7 hcreate hwrite)) (h7 hcreate hwrite)
  simp only [exportAll, h1, h3, e _ _ _ h2, e _ _ _ h4, andThen]

/-- C77 does not hold in full: a write that takes only a part of the bytes, as the operating system may, makes the tool fail and leaves a
part of the data stream in the output file. -/
theorem C77_violated_short (c : Config S) (fuel : Nat) (t : Target) (s s' : S) (data : List Byte) (count : Nat) (hcreate : c.create = true)
    (hr : c.read s 65536 = .ok (data, s')) (hw : c.write [] data = some count) (_h0 : 0 < count) (hc : count < data.length) :
    writeStream c (fuel + 1) t s = (⟨some (data.take count), t.written⟩, .err) := by
  simp only [writeStream, hcreate, if_true, copyLoop, hr, hw]
  rw [if_neg (by omega), if_pos (by omega)]
  rfl

namespace ExportToolExample

/-- Data streams are what is still to be read of them, three bytes at a time. In the file system with type `t` the path is looked up as
`found`. -/
def config (found : Location ScanPath → Option (List Byte)) : Config (List Byte) :=
  ⟨fun s n => .ok (s.take (min n 3), s.drop (min n 3)), true, fun _ d => some d.length, fun location _ => .ok (found location)⟩

theorem reads (found : Location ScanPath → Option (List Byte)) (data : List Byte) (h : data.length < 2 ^ 64) : ReadsAs (config found).read data data := by
  refine ⟨h, fun s p => s = data.drop p, rfl, ?_⟩
  intro s p n hs
  refine ⟨s.take (min n 3), s.drop (min n 3), rfl, ?_, ?_⟩
  · subst hs
    unfold readOk
    split
    · refine ⟨?_, ?_, by simp⟩
      · rw [Int.toNat_natCast]
        exact List.take_prefix_take_left (Nat.min_le_left _ _)
      · intro h1 h2
        rw [Int.toNat_natCast] at h2
        simp only [ne_eq, List.take_eq_nil_iff, List.drop_eq_nil_iff, not_or]
        omega
    · rw [List.drop_eq_nil_of_le (by omega), List.take_nil]
  · subst hs
    rw [List.drop_drop, List.length_take, List.length_drop]
    rcases Nat.le_total (min n 3) (data.length - p) with h | h
    · rw [Nat.min_eq_left h]
    · rw [Nat.min_eq_right h, List.drop_eq_nil_of_le (by omega), List.drop_eq_nil_of_le (by omega)]

theorem gives (found : Location ScanPath → Option (List Byte)) (h : ∀ x data, found x = some data → data.length < 2 ^ 64) (x : Location ScanPath)
    (name : Option (List Nat)) : Gives (config found).read ((config found).lookup x name) (found x) := by
  show Gives _ (.ok (found x)) _
  cases hx : found x with
  | none => rfl
  | some data => exact ⟨data, rfl, reads found data (h x data hx)⟩

/-- `/x` in an NTFS file system only. -/
def inNtfs : Location ScanPath → Option (List Byte)
  | .layer _ _ .ntfs => some [1, 2, 3, 4]
  | _ => none

/-- The image of `VfsScannerExample.world`: the path is looked for in partition 1, 2 and 3 and is in partition 2. -/
example : ∃ node, VfsScanner.scan VfsScannerExample.world (0 + 4) (.base (.os [0x61]) .os) = .ok node ∧
    ∀ fuel, 2 ^ 64 ≤ fuel → ∀ t, tool (config inNtfs) fuel [0x2f, 0x78] none t node = (⟨some [1, 2, 3, 4], t.written + 1⟩, .ok ()) := by
  have hw : HoldsContent VfsScannerExample.world [0x61] 0 VfsScannerExample.content := by
    refine ⟨by decide +kernel, VfsParts.ofLayers .qcow [1, 2], 2, rfl, rfl, rfl, by decide, by decide, ?_, rfl, ?_⟩
    · rintro (h | h | h) <;> cases h
    · refine ⟨.inl ⟨.inr rfl, by decide +kernel⟩, by decide, VfsParts.ofLayers .gpt [3, 4, 5], rfl, rfl, rfl, ?_⟩
      intro i hi
      match i, hi with
      | 0, _ => exact ⟨3, rfl, by show VfsScannerExample.world.scan _ _ = _; decide +kernel⟩
      | 1, _ => exact ⟨4, rfl, by show VfsScannerExample.world.scan _ _ = _; decide +kernel⟩
      | 2, _ => exact ⟨5, rfl, by show VfsScannerExample.world.scan _ _ = _; decide +kernel⟩
  obtain ⟨node, h1, h2⟩ := C77_export_partial VfsScannerExample.world 0 [0x61] 0 VfsScannerExample.content rfl hw
    (by intro k n x h; cases h; exact .inr (.inl rfl)) (by simp [VfsScannerExample.content, Content.nodes]) (config inNtfs) [0x2f, 0x78] none inNtfs
    (fun x _ => gives inNtfs (by
      intro x data h
      unfold inNtfs at h
      split at h
      · cases h; decide
      · cases h) x none)
  refine ⟨node, h1, fun fuel hf t => ?_⟩
  obtain ⟨-, h3, h4⟩ := h2 fuel hf t _ _ rfl
  have hok := h4 rfl fun _ _ => rfl
  exact Prod.ext (h3 hok) hok

/-- `/x` in a FAT and an NTFS file system. -/
def inBoth : Location ScanPath → Option (List Byte)
  | .layer _ _ .ntfs => some [1, 2, 3, 4]
  | .layer _ _ .fat => some [5]
  | _ => none

theorem both_short : ∀ x data, inBoth x = some data → data.length < 2 ^ 64 := by
  intro x data h
  unfold inBoth at h
  split at h
  · cases h; decide
  · cases h; decide
  · cases h

example (t : Target) : tool (config inBoth) (2 ^ 64) [0x2f, 0x78] none t
    (.node (.base (.os [0x61]) .os) ((Disk.partitions .gpt [.fat, .ntfs]).nodes (.base (.os [0x61]) .os))) = (⟨some [1, 2, 3, 4], t.written + 2⟩, .ok ()) :=
  C77_violated_overwrite (config inBoth) none (2 ^ 64) (Nat.le_refl _) _ _ .gpt .fat .ntfs [5] [1, 2, 3, 4] (by decide) rfl (fun _ _ => rfl) _ _ rfl rfl
    (gives inBoth both_short _ none) (gives inBoth both_short _ none) t

example (t : Target) : writeStream { config inBoth with write := fun _ d => some (d.length - 1) } 1 t [1, 2, 3, 4] = (⟨some [1, 2], t.written⟩, .err) :=
  C77_violated_short _ 0 t [1, 2, 3, 4] [4] [1, 2, 3] 2 rfl rfl rfl (by decide) (by decide)

/-- The first read of the data stream gives three bytes, the next fails. -/
example (t : Target) : ∃ file, tool { config inBoth with read := fun s n => if s = [1] then .err else .ok (s.take (min n 3), s.drop (min n 3)), lookup := fun _ _ => .ok (some [3, 2, 1, 1]) } 4 [0x2f, 0x78] none t
    (.node (.base (.os [0x61]) .os) ((Disk.partitions .gpt [.fat, .ntfs]).nodes (.base (.os [0x61]) .os))) = (⟨file, t.written⟩, .err) :=
  C77_unreadable _ _ _ .gpt .fat [.ntfs] _ _ rfl [3, 2, 1, 1] rfl 3 (.later (out := [3, 2, 1]) (s' := [1]) (k := 0) rfl (by decide) (.now rfl)) 4 (by decide) t

/-- A file that is nothing known. -/
example (t : Target) : ∃ node, VfsScanner.scan { VfsScannerExample.world with scan := fun _ _ => .ok [] } (0 + 4) (.base (.os [0x61]) .os) = .ok node ∧
    tool (config inBoth) 1 [0x2f, 0x78] none t node = (t, .err) :=
  C77_nothing { VfsScannerExample.world with scan := fun _ _ => .ok [] } 0 [0x61] 0 rfl ⟨rfl, rfl, rfl, .inr (.inr ⟨rfl, rfl⟩)⟩ _ _ _ _ t

end ExportToolExample

end Keramics.Props
