import Verif.Lemmas.Ntfs

/-!
Property theorems: NTFS run lists (C33), update sequences (C34) and attribute streams (C35).
-/

namespace Keramics.Props
open Keramics Keramics.Spec Keramics.Spec.Ntfs
open Keramics.Ntfs (DataRun Group Attribute readRuns applyFixups openStream stream)

/-! ## C33 -/

/-- C33: every encoding of every run list is read back as that list, whether it is ended with a zero byte
or with the data; the number of bytes read is that of the encoding with its end. -/
theorem C33_data_runs (runs : List Run) (bytes : List Byte) (h : Encodes 0 runs bytes)
    (hlcn : ∀ count lcn, Run.data count lcn ∈ runs → lcn < 2 ^ 63)
    (before tail : List Byte) (ht : tail = [] ∨ ∃ junk, tail = 0#8 :: junk) (hlen : (before ++ bytes ++ tail).length < 2 ^ 64) :
    readRuns (before ++ bytes ++ tail) before.length = .ok (bytes.length + min 1 tail.length,
      runs.map fun
        | .data count lcn => ⟨lcn, count, .inFile⟩
        | .sparse count => ⟨0, count, .sparse⟩) := by
  have := Ntfs.runsLoop_encodes h (by decide) hlcn before tail ht hlen (before ++ bytes ++ tail).length
    (by simp only [List.length_append]; omega) []
  unfold readRuns
  rw [this, R.ok_bind]
  simp only
  rw [R.subU_ok (by omega), R.ok_bind, R.pure_eq, List.nil_append]
  congr 2
  · omega

/-- The hypothesis is met: three clusters at 40, two sparse ones, five clusters at 10 (30 back). -/
example : Encodes 0 [.data 3 40, .sparse 2, .data 5 10] [0x11#8, 3#8, 40#8, 0x01#8, 2#8, 0x11#8, 5#8, 0xe2#8] :=
  .data 1 1 (by decide) (by decide) (by decide) (by decide) (by decide) (by decide) (by decide)
    (.sparse 1 (by decide) (by decide) (by decide)
      (.data 1 1 (by decide) (by decide) (by decide) (by decide) (by decide) (by decide) (by decide) .nil))

/-! ## C34 -/

/-- C34: a protected record is restored. The array at `offset` holds the update sequence number and
the ends of the sectors, and lies in the first sector before its end. -/
theorem C34_restore (record number : List Byte) (k offset : Nat) (hlen : record.length = 512 * k) (hk : 0 < k)
    (hn : number.length = 2) (hoff : offset + 2 * (k + 1) ≤ 510)
    (harr : (record.drop offset).take (2 * (k + 1)) = number ++ sectorEnds k record) :
    applyFixups (protect number k record) offset (k + 1) = .ok record := by
  have hpl : ∀ (k : Nat) (r : List Byte), 512 * k ≤ r.length → (protect number k r).length = r.length := by
    intro k
    induction k with
    | zero => intros; rfl
    | succ k ih =>
      intro r h
      have := ih (r.drop 512) (by rw [List.length_drop]; omega)
      rw [protect, List.length_append, List.length_append, List.length_take, this, hn, List.length_drop]; omega
  have hpl := hpl k record (by omega)
  have hpre : (protect number k record).take 510 = record.take 510 := by
    obtain ⟨k, rfl⟩ : ∃ k', k = k' + 1 := ⟨k - 1, by omega⟩
    rw [protect, List.append_assoc, Ntfs.take_left (by rw [List.length_take]; omega)]
  have hsl : ∀ n, offset + n ≤ 510 → ((protect number k record).drop offset).take n = (record.drop offset).take n := by
    intro n hle
    have h1 := congrArg (fun l => (l.drop offset).take n) hpre
    simp only [List.drop_take, List.take_take] at h1
    rwa [Nat.min_eq_left (by omega)] at h1
  unfold applyFixups
  rw [R.require_true (by omega), R.ok_bind, R.require_true (by omega), R.ok_bind, R.slice_ok (by omega) (by omega), R.ok_bind,
    Nat.add_sub_cancel_left, hsl 2 (by omega)]
  have hnum : (record.drop offset).take 2 = number := by
    have := congrArg (List.take 2) harr
    rwa [List.take_take, Nat.min_eq_left (by omega), Ntfs.take_left hn] at this
  rw [hnum, Nat.add_sub_cancel]
  have hends : (record.drop (offset + 2)).take (2 * k) = sectorEnds k record := by
    have := congrArg (List.drop 2) harr
    rw [Ntfs.drop_left hn, List.drop_take, List.drop_drop] at this
    rw [← this]; rfl
  have := Ntfs.fixLoop_protect hn k [] record (offset + 2) (by omega) (by simp; omega) (by
    rw [List.nil_append, List.drop_take, List.take_take, Nat.min_eq_left (by omega), hends])
  simpa using this

/-- C34: if the end of one of the protected sectors does not hold the update sequence number, the record is
rejected. -/
theorem C34_torn (buffer : List Byte) (k offset j : Nat) (hlen : 512 * k ≤ buffer.length) (hoff : offset + 2 * (k + 1) ≤ 510)
    (hj : j < k) (hne : (buffer.drop (512 * j + 510)).take 2 ≠ (buffer.drop offset).take 2) :
    applyFixups buffer offset (k + 1) = .err := by
  unfold applyFixups
  rw [R.require_true (by omega), R.ok_bind, R.require_true (by omega), R.ok_bind, R.slice_ok (by omega) (by omega), R.ok_bind,
    Nat.add_sub_cancel_left, Nat.add_sub_cancel]
  exact Ntfs.fixLoop_torn (by rw [List.length_take, List.length_drop]; omega) k buffer (offset + 2) 510 j hj (by omega) (by omega)
    (by rw [Nat.add_comm]; exact hne)

/-- C34: parameters that reach outside of the buffer are errors. -/
theorem C34_bounds (buffer : List Byte) (offset number : Nat) (h : buffer.length ≤ offset ∨ buffer.length < offset + 2 * number) :
    applyFixups buffer offset number = .err := by
  unfold applyFixups
  by_cases h1 : offset < buffer.length
  · rw [R.require_true h1, R.ok_bind, R.require_false (by omega)]; rfl
  · rw [R.require_false h1]; rfl

/-- C34: whatever the buffer and the parameters are, the code does not panic and keeps the size. -/
theorem C34_total (buffer : List Byte) (offset number : Nat) :
    applyFixups buffer offset number ≠ .panic ∧ ∀ b, applyFixups buffer offset number = .ok b → b.length = buffer.length := by
  have : R.Sat (applyFixups buffer offset number) fun b => b.length = buffer.length := by
    unfold applyFixups
    refine R.Sat.bind R.sat_require fun _ h1 => R.Sat.bind R.sat_require fun _ h2 => ?_
    rw [R.slice_ok (by omega) (by omega), R.ok_bind]
    exact Ntfs.fixLoop_sat _ _ _ _ _ (by omega)
  exact ⟨this.ne_panic, fun b h => this.of_ok h⟩

/-- The hypotheses are met by a record of two sectors with the array at 48. -/
example : ∃ record number : List Byte, record.length = 512 * 2 ∧ number.length = 2 ∧
    (record.drop 48).take (2 * (2 + 1)) = number ++ sectorEnds 2 record ∧ protect number 2 record ≠ record :=
  ⟨List.replicate 48 1#8 ++ [7#8, 0#8, 0xa1#8, 0xa2#8, 0xb1#8, 0xb2#8] ++ List.replicate 456 2#8 ++ [0xa1#8, 0xa2#8] ++
    List.replicate 510 3#8 ++ [0xb1#8, 0xb2#8], [7#8, 0#8], by decide +kernel, by decide, by decide +kernel, by decide +kernel⟩

/-! ## C35 -/

/-- C35: reading the stream of a non-resident attribute. The attribute has any number of groups of runs, each
with the number of its first and last cluster, one after the other. -/
theorem C35_contents (volume : List Byte) (bs allocated validSize size : Nat) (groups : List (Nat × Nat × List Run))
    (runs : List Run) (hruns : runs = groups.flatMap (fun g => g.2.2))
    (hgroups : Follow 0 groups) (hbs : 0 < bs) (hcount : ∀ r ∈ runs, 0 < r.count)
    (hinside : ∀ count lcn, Run.data count lcn ∈ runs → (lcn + count) * bs ≤ volume.length) (hvol : volume.length < 2 ^ 64)
    (halloc : 0 < allocated) (hround : allocated + bs < 2 ^ 63) (hfit : (runs.map fun r => r.count * bs).sum ≤ (allocated + bs - 1) / bs * bs)
    (hvalid : validSize ≤ (runs.map fun r => r.count * bs).sum) (hvs : validSize ≤ size)
    (ops : List StreamOp) (hf : size + seekBudget ops < 2 ^ 63) :
    ∃ s tr, openStream bs ⟨false, false, allocated, size, validSize, groups.map fun g => ⟨g.1, g.2.1, g.2.2.map fun
          | .data count lcn => ⟨lcn, count, .inFile⟩
          | .sparse count => ⟨0, count, .sparse⟩⟩⟩ = .ok s ∧
      Stream.run (stream volume bs s) ⟨(), 0⟩ ops = .ok tr ∧ tr.map Prod.fst = ops ∧
      Trace true (contents volume bs runs validSize size) size 0 tr := by
  have hmul : (allocated + bs - 1) / bs * bs ≤ allocated + bs - 1 := Nat.div_mul_le_self _ _
  obtain ⟨tree, e1, e2, e3⟩ := Ntfs.openGroups_ok hbs groups
    (fun g hg r hr => hcount r (hruns ▸ List.mem_flatMap.2 ⟨g, hg, hr⟩)) (vcn := 0) (off := 0) hgroups
    (tree := BlockTree.new ((allocated + bs - 1) / bs * bs) 0 bs) (BlockTree.new_holds _ _ _ hbs) rfl rfl
    (by simp only [BlockTree.new]; omega) (Nat.dvd_zero _) (by rw [Nat.zero_add, ← hruns]; exact hfit) (by simp) (Nat.le_refl _)
  rw [List.nil_append, ← hruns] at e2
  have htot : Layout.total (Ntfs.runLen bs) runs = (runs.map fun r => r.count * bs).sum := rfl
  have hds : tree.dataSize = (allocated + bs - 1) / bs * bs := e3
  have hbl : (runs.flatMap (Run.bytes volume bs)).length = Layout.total (Ntfs.runLen bs) runs :=
    Layout.flatMap_length _ _ _ fun r hr => Ntfs.Run.bytes_length fun count lcn e => hinside count lcn (e ▸ hr)
  have hcl : (contents volume bs runs validSize size).length = size := by
    rw [contents, List.length_append, List.length_take, List.length_replicate, hbl]; omega
  have hpiece := fun (pos n : Nat) => Ntfs.piece_spec (volume := volume) (bs := bs) (runs := runs) (s := ⟨tree, size, validSize⟩)
    (pos := pos) (n := n) hinside hvol e2 (by show _ ≤ tree.dataSize; omega) (by show tree.dataSize < _; omega)
    (by show validSize ≤ _; omega) hvs
  have hok : Blocks.PieceOk (Ntfs.piece volume bs ⟨tree, size, validSize⟩) (fun _ => True) (contents volume bs runs validSize size) := by
    intro s pos n out s' _ hn hp h
    obtain ⟨out', h1, h2, h3⟩ := hpiece pos n hn (by rw [hcl] at hp; exact hp)
    rw [h1] at h
    cases h
    exact ⟨trivial, h2, h3⟩
  have htotal : Blocks.PieceTotal (Ntfs.piece volume bs ⟨tree, size, validSize⟩) (fun _ => True) (contents volume bs runs validSize size) := by
    intro s pos n _ hn hp
    obtain ⟨out', h1, -, -⟩ := hpiece pos n hn (by rw [hcl] at hp; exact hp)
    exact ⟨_, _, h1⟩
  obtain ⟨tr, t1, t2, t3⟩ := Blocks.blocks_correct hok htotal ops (by rw [hcl]; exact hf) () trivial
  rw [hcl] at t1 t3
  refine ⟨⟨tree, size, validSize⟩, tr, ?_, t1, t2, t3⟩
  unfold openStream
  rw [R.require_true rfl, R.ok_bind, R.check_true (by omega), R.ok_bind]
  have hdc : BlockTree.divCeil allocated bs = (allocated + bs - 1) / bs := rfl
  simp only
  rw [hdc, R.mulU_ok (by omega), R.ok_bind]
  unfold Ntfs.openTree
  rw [if_pos halloc]
  have : (groups.map fun g => (⟨g.1, g.2.1, g.2.2.map fun
          | .data count lcn => ⟨lcn, count, .inFile⟩
          | .sparse count => ⟨0, count, .sparse⟩⟩ : Group)) = groups.map Ntfs.keptGroup := by
    congr 1
  simp only [this]
  rw [e1, R.ok_bind]
  rfl

/-- The hypotheses are met: two groups, the first with a run and a sparse run, the valid data ends in the
second, and the size is larger than the valid data size. -/
example : let groups : List (Nat × Nat × List Run) := [(0, 2, [.data 2 5, .sparse 1]), (3, 3, [.data 1 2])]
    let runs := groups.flatMap (fun g => g.2.2)
    Follow 0 groups ∧ (∀ r ∈ runs, 0 < r.count) ∧
    (∀ count lcn, Run.data count lcn ∈ runs → (lcn + count) * 512 ≤ (List.replicate 4096 7#8).length) ∧
    (runs.map fun r => r.count * 512).sum ≤ (2048 + 512 - 1) / 512 * 512 ∧ 1700 ≤ (runs.map fun r => r.count * 512).sum := by
  refine ⟨⟨rfl, Or.inr rfl, rfl, Or.inr rfl, trivial⟩, by decide, ?_, by decide, by decide⟩
  intro count lcn h
  rw [List.length_replicate]
  simp at h
  omega

end Keramics.Props
