import Verif.Lemmas.NtfsAttributes

/-!
# The master file table and the volume
-/

namespace Keramics.NtfsFs
open Keramics.Spec Keramics.Spec.Ntfs Keramics.Spec.NtfsFs Keramics.BlockTree
open Keramics.Ntfs (DataRun Range runLen runRange kept)

/-- All runs are in the volume. -/
def DataRuns (U : List Byte) (cs : Nat) (runs : List Run) : Prop := ∀ r ∈ runs, ∃ count lcn, r = .data count lcn ∧ 0 < count ∧ (lcn + count) * cs ≤ U.length

theorem ranges_dvd {len : Run → Nat} {u : Nat} (runs : List Run) (h : ∀ r ∈ runs, u ∣ len r) {base : Nat} (hb : u ∣ base)
    {x} (hx : x ∈ Layout.ranges len runRange base runs) : u ∣ x.offset := by
  induction runs generalizing base with
  | nil => cases hx
  | cons r runs ih =>
    rcases List.mem_cons.1 hx with rfl | hx
    · exact hb
    · exact ih (fun y hy => h y (List.mem_cons_of_mem _ hy)) (Nat.dvd_add hb (h r List.mem_cons_self)) hx

/-- The place of a record of `S` bytes in the volume. -/
theorem place {U : List Byte} {cs S pos : Nat} {runs : List Run} {tree : BlockTree.Tree Range} (hd : DataRuns U cs runs) (hdvd : ∀ r ∈ runs, S ∣ r.count * cs)
    (hh : Holds tree (Layout.ranges (runLen cs) runRange 0 runs)) (ht : Layout.total (runLen cs) runs ≤ tree.dataSize) (hS : 0 < S) (hpos : S ∣ pos)
    (hp : pos + S ≤ (runs.flatMap (Run.bytes U cs)).length) :
    ∃ off count lcn, BlockTree.get tree pos = .ok (some ⟨off, lcn, count, false⟩) ∧ off ≤ pos ∧ pos - off + S ≤ count * cs ∧ (lcn + count) * cs ≤ U.length ∧
      bytesAt (runs.flatMap (Run.bytes U cs)) pos S = bytesAt U (lcn * cs + (pos - off)) S := by
  have hbl : ∀ r ∈ runs, (r.bytes U cs).length = runLen cs r := fun r hr => Ntfs.Run.bytes_length fun count lcn e => by
    obtain ⟨c, l, e', -, h⟩ := hd r hr
    rw [e] at e'; cases e'; exact h
  have hfl := Layout.flatMap_length (runLen cs) (Run.bytes U cs) runs hbl
  rw [hfl] at hp
  obtain ⟨off, r, h1, h2, h3, h4, h5, h6⟩ := Layout.at_pos (runLen cs) runRange (Run.bytes U cs) 0 runs hbl (pos := pos) (by omega)
  rw [Nat.zero_add] at h2
  have hoff : S ∣ off := ranges_dvd runs hdvd (Nat.dvd_zero _) h2
  have hlen : S ∣ runLen cs r := hdvd r h1
  obtain ⟨count, lcn, rfl, hc, hin⟩ := hd r h1
  have hroom : pos - off + S ≤ count * cs := by
    have e : runLen cs (.data count lcn) = count * cs := rfl
    rw [e] at h4 hlen
    obtain ⟨a, rfl⟩ := hoff
    obtain ⟨b, rfl⟩ := hpos
    obtain ⟨c, hc⟩ := hlen
    rw [hc] at h4 ⊢
    have hab : a ≤ b := Nat.le_of_mul_le_mul_left h3 hS
    have hbc : b < a + c := Nat.lt_of_mul_lt_mul_left (a := S) (by rw [Nat.mul_add]; exact h4)
    have : S * (b + 1) ≤ S * (a + c) := Nat.mul_le_mul_left _ hbc
    rw [Nat.mul_add, Nat.mul_add] at this
    omega
  refine ⟨off, count, lcn, get_range hh h2 ⟨h3, h4⟩ (by omega), h3, hroom, hin, ?_⟩
  rw [Nat.add_mul] at hin
  have hl1 : (bytesAt (runs.flatMap (Run.bytes U cs)) pos S).length = S := bytesAt_length (by omega)
  have hl2 : (bytesAt U (lcn * cs + (pos - off)) S).length = S := bytesAt_length (by omega)
  refine List.ext_getElem? fun i => ?_
  by_cases hi : i < S
  · unfold bytesAt
    rw [List.getElem?_take_of_lt hi, List.getElem?_drop, List.getElem?_take_of_lt hi, List.getElem?_drop, h6 i (by
      have e : runLen cs (.data count lcn) = count * cs := rfl
      omega)]
    unfold Run.bytes
    rw [List.getElem?_take_of_lt (by omega), List.getElem?_drop]
    congr 1
    omega
  · rw [List.getElem?_eq_none (by omega), List.getElem?_eq_none (by omega)]

/-- The table that is kept. -/
structure MftOk (U : List Byte) (mft : List Run) (m : Mft) : Prop where
  cluster : m.clusterSize = clusterSize U
  entry : m.entrySize = entrySize U
  count : m.count = (mftBytes U mft).length / entrySize U
  tree : Holds m.tree (Layout.ranges (runLen (clusterSize U)) runRange 0 mft)
  total : Layout.total (runLen (clusterSize U)) mft ≤ m.tree.dataSize

theorem addRuns_ok {cs es : Nat} (hcs : 0 < cs) (hes : 0 < es) (runs : List Run) (hd : ∀ r ∈ runs, ∃ count lcn, r = .data count lcn ∧ 0 < count)
    (hdvd : ∀ r ∈ runs, es ∣ r.count * cs) {vcn off : Nat} {m : Mft} (hmc : m.clusterSize = cs) (hme : m.entrySize = es)
    {rs : List (Spec.BlockTree.Range Range)} (hh : Holds m.tree rs) (hp : m.tree.perNode = 0) (hl : m.tree.leafSize = es) (hds : m.tree.dataSize < 2 ^ 63)
    (hal : es ∣ off) (hle : off + Layout.total (runLen cs) runs ≤ m.tree.dataSize) (hup : ∀ r ∈ rs, r.offset + r.size ≤ off) (hv : vcn ≤ off)
    (hcount : m.count ≤ off) :
    ∃ tree', addRuns (runs.map kept) m vcn off =
        .ok ({ m with count := m.count + Layout.total (runLen cs) runs / es, tree := tree' }, vcn + Layout.total Run.count runs) ∧
      Holds tree' (rs ++ Layout.ranges (runLen cs) runRange off runs) ∧ tree'.dataSize = m.tree.dataSize ∧
      tree'.perNode = m.tree.perNode ∧ tree'.leafSize = m.tree.leafSize := by
  induction runs generalizing vcn off m rs with
  | nil => exact ⟨m.tree, by simp [addRuns, Layout.total], by simpa [Layout.ranges] using hh, rfl, rfl, rfl⟩
  | cons r runs ih =>
    obtain ⟨count, lcn, rfl, hr⟩ := hd r (by simp)
    have hdv := hdvd _ List.mem_cons_self
    rw [Layout.total_cons] at hle
    have hlen : runLen cs (.data count lcn) = count * cs := rfl
    have hle1 : count * 1 ≤ count * cs := Nat.mul_le_mul_left _ hcs
    have hdv : es ∣ count * cs := hdv
    have hdle : count * cs / es ≤ count * cs := Nat.div_le_self _ _
    obtain ⟨tree1, i1, i2, i3, i4, i5⟩ := insert_flat hh (off := off) (size := count * cs) (v := (⟨off, lcn, count, false⟩ : Range)) (by omega)
      (by omega) (by omega) (by omega) (hl ▸ hal) (hl ▸ hdv) (fun x hx => apart_of_le (hup x hx))
    obtain ⟨tree', e1, e2, e3, e4, e5⟩ := ih (fun x hx => hd x (List.mem_cons_of_mem _ hx)) (fun x hx => hdvd x (List.mem_cons_of_mem _ hx)) (vcn := vcn + count)
      (off := off + count * cs) (m := { m with count := m.count + count * cs / es, tree := tree1 }) hmc hme i2 (by simp only; omega) (by simp only; omega)
      (by simp only; omega) (Nat.dvd_add hal hdv) (by simp only; omega)
      (fun x hx => by
        rcases List.mem_append.1 hx with hx | hx
        · have := hup x hx; omega
        · rw [List.mem_singleton.1 hx]) (by omega) (by simp only; omega)
    refine ⟨tree', ?_, ?_, e3.trans i3, e4.trans i4, e5.trans i5⟩
    · rw [List.map_cons, addRuns]
      have k1 : (kept (.data count lcn)).count = count := rfl
      have k2 : (kept (.data count lcn)).block = lcn := rfl
      have k3 : (kept (.data count lcn)).kind = .inFile := rfl
      simp only [hmc, hme] at e1
      rw [k1, k2, hmc, R.mulU_ok (by omega), R.ok_bind, hme, R.check_true (by omega), R.ok_bind, R.require_true (Nat.mod_eq_zero_of_dvd hdv), R.ok_bind,
        R.addU_ok (by omega), R.ok_bind, R.require_true k3, R.ok_bind, i1, R.ok_bind, R.addU_ok (by omega), R.ok_bind, R.addU_ok (by omega), R.ok_bind, e1,
        Layout.total_cons, Layout.total_cons, hlen]
      simp only [Nat.add_assoc]
      congr 2
      obtain ⟨k, hk⟩ := hdv
      rw [hk, Nat.mul_add_div hes, Nat.mul_div_cancel_left _ hes]
    · rw [Layout.ranges, hlen]; simpa [runRange] using e2

/-- A record of the table is read from its place. -/
theorem getEntry_raw {U : List Byte} {mft : List Run} {m : Mft} {n : Nat} (hm : MftOk U mft m) (hd : DataRuns U (clusterSize U) mft)
    (hw : ∀ r ∈ mft, entrySize U ∣ r.count * clusterSize U) (hs : 42 ≤ entrySize U ∧ entrySize U ≤ 65535) (hU : U.length < 2 ^ 63) (hds : m.tree.dataSize < 2 ^ 63)
    (h1 : (n + 1) * entrySize U ≤ (mftBytes U mft).length) : getEntry U m n = readEntry (bytesAt (mftBytes U mft) (n * entrySize U) (entrySize U)) := by
  have hfl := Layout.flatMap_length (runLen (clusterSize U)) (Run.bytes U (clusterSize U)) mft (fun r hr => Ntfs.Run.bytes_length fun count lcn e => by
    obtain ⟨c, l, e', -, h⟩ := hd r hr
    rw [e] at e'; cases e'; exact h)
  have ht := hm.total
  rw [Nat.add_mul, Nat.one_mul] at h1
  unfold mftBytes at h1 ⊢
  obtain ⟨off, count, lcn, g1, g2, g3, g4, g5⟩ := place hd hw hm.tree ht (by omega) (Nat.dvd_mul_left _ n) h1
  rw [Nat.add_mul] at g4
  unfold getEntry entryPlace
  rw [hm.entry, hm.cluster, R.mulU_ok (by omega), R.ok_bind, g1, R.ok_bind]
  simp only [Fat.orErr]
  rw [R.ok_bind]
  simp only
  rw [R.subU_ok g2, R.ok_bind, R.mulU_ok (by omega), R.ok_bind, R.addU_ok (by omega), R.ok_bind]
  unfold readEntryAt
  rw [R.require_true hs, R.ok_bind, readExactAt_ok (by omega), R.ok_bind, g5]
  rfl

theorem getEntry_ok {U record : List Byte} {mft : List Run} {m : Mft} {n : Nat} (hm : MftOk U mft m) (hd : DataRuns U (clusterSize U) mft)
    (hw : ∀ r ∈ mft, entrySize U ∣ r.count * clusterSize U) (hs : 42 ≤ entrySize U ∧ entrySize U ≤ 65535) (hU : U.length < 2 ^ 63) (hds : m.tree.dataSize < 2 ^ 63)
    (h : EntryAt U mft n record) : getEntry U m n = .ok (entryOf record) := by
  rw [getEntry_raw hm hd hw hs hU hds h.1]
  exact readEntry_ok h.2.1 h.2.2

theorem readAttributes_ok {record : List Byte} {as bs : List Attribute} {attrs : Attrs} (hl : record.length < 2 ^ 32) (h : AttributesAt record (field record 20 2) bs)
    (hi : Inv as attrs) (hs : Sound (as ++ bs)) : ∃ attrs', readAttributes (entryOf record) attrs = .ok attrs' ∧ Inv (as ++ bs) attrs' :=
  attrsLoop_ok hl h hi hs (record.length + 3) (by omega)

theorem cluster_pos {U : List Byte} (h : Spec.NtfsFs.Boot U) : 0 < clusterSize U := by
  obtain ⟨k, -, -, e⟩ := h.cluster; rw [e]; exact Nat.pow_pos (by decide)

/-- A table to which runs are added. -/
structure Part (U : List Byte) (runs : List Run) (m : Mft) : Prop where
  ok : MftOk U runs m
  flat : m.tree.perNode = 0
  leaf : m.tree.leafSize = entrySize U
  bound : m.tree.dataSize < 2 ^ 63

theorem total_dvd {cs es : Nat} (runs : List Run) (h : ∀ r ∈ runs, es ∣ r.count * cs) : es ∣ Layout.total (runLen cs) runs := by
  induction runs with
  | nil => exact Nat.dvd_zero _
  | cons r runs ih => rw [Layout.total_cons]; exact Nat.dvd_add (h r (by simp)) (ih fun x hx => h x (List.mem_cons_of_mem _ hx))

theorem total_mul (cs : Nat) (runs : List Run) : Layout.total (runLen cs) runs = Layout.total Run.count runs * cs := by
  induction runs with
  | nil => simp [Layout.total]
  | cons r runs ih => rw [Layout.total_cons, Layout.total_cons, ih, Nat.add_mul]; rfl

theorem mftBytes_length {U : List Byte} {runs : List Run} (hd : DataRuns U (clusterSize U) runs) :
    (mftBytes U runs).length = Layout.total (runLen (clusterSize U)) runs :=
  Layout.flatMap_length (runLen (clusterSize U)) (Run.bytes U (clusterSize U)) runs (fun r hr => Ntfs.Run.bytes_length fun count lcn e => by
    obtain ⟨c, l, e', -, h⟩ := hd r hr
    rw [e] at e'; cases e'; exact h)

theorem addGroup_ok {U : List Byte} {runs : List Run} {m : Mft} {p : Piece} (hb : Spec.NtfsFs.Boot U) (hm : Part U runs m)
    (hd : DataRuns U (clusterSize U) (runs ++ p.runs)) (hw : ∀ r ∈ runs ++ p.runs, entrySize U ∣ r.count * clusterSize U)
    (hf : Follow (runs.map Run.count).sum [(p.first, p.last, p.runs)])
    (ht : Layout.total (runLen (clusterSize U)) (runs ++ p.runs) ≤ m.tree.dataSize) :
    ∃ m', addGroup m (groupOf p) = .ok m' ∧ Part U (runs ++ p.runs) m' ∧ m'.tree.dataSize = m.tree.dataSize := by
  have hcs := cluster_pos hb
  have hent := hb.entry
  have hd1 : DataRuns U (clusterSize U) runs := fun r hr => hd r (List.mem_append_left _ hr)
  have hw1 : ∀ r ∈ runs, entrySize U ∣ r.count * clusterSize U := fun r hr => hw r (List.mem_append_left _ hr)
  have htot := total_mul (clusterSize U) runs
  have htot2 := total_mul (clusterSize U) p.runs
  have hdv := total_dvd runs hw1
  have hbound := hm.bound
  have hle := Layout.total_append (runLen (clusterSize U)) runs p.runs
  have hcount := hm.ok.count
  rw [mftBytes_length hd1] at hcount
  obtain ⟨h1, h2, -⟩ := hf
  have h1 : p.first = Layout.total Run.count runs := h1
  have h2 : p.last = 0xffffffffffffffff ∨ p.last + 1 = Layout.total Run.count runs + Layout.total Run.count p.runs := h2
  have hlow : Layout.total Run.count runs * 1 ≤ Layout.total Run.count runs * clusterSize U := Nat.mul_le_mul_left _ hcs
  have hlow2 : Layout.total Run.count p.runs * 1 ≤ Layout.total Run.count p.runs * clusterSize U := Nat.mul_le_mul_left _ hcs
  have hdiv : Layout.total (runLen (clusterSize U)) runs / entrySize U ≤ Layout.total (runLen (clusterSize U)) runs := Nat.div_le_self _ _
  obtain ⟨tree, t1, t2, t3, t4, t5⟩ := addRuns_ok hcs (es := entrySize U) (by omega) p.runs (fun r hr => by
      obtain ⟨c, l, e, h, -⟩ := hd r (List.mem_append_right _ hr); exact ⟨c, l, e, h⟩) (fun r hr => hw r (List.mem_append_right _ hr))
    (vcn := Layout.total Run.count runs) (off := Layout.total (runLen (clusterSize U)) runs) (m := m) hm.ok.cluster hm.ok.entry hm.ok.tree hm.flat hm.leaf hm.bound
    hdv (by omega) (fun r hr => by have := Layout.ranges_end _ _ _ _ hr; omega) (by omega) (by omega)
  have hlok : Ntfs.lastOk p.last (Layout.total Run.count runs + Layout.total Run.count p.runs) = .ok () := by
    unfold Ntfs.lastOk
    rcases h2 with h | h
    · simp [h]
    · split
      · rw [R.addU_ok (by omega), R.ok_bind, R.require_true h]
      · rfl
  refine ⟨{ m with count := m.count + Layout.total (runLen (clusterSize U)) p.runs / entrySize U, tree := tree }, ?_, ⟨⟨hm.ok.cluster, hm.ok.entry, ?_, ?_, ?_⟩, t4.trans hm.flat, t5.trans hm.leaf, t3.trans_lt hm.bound⟩, t3⟩
  · unfold addGroup groupOf
    simp only
    rw [h1, hm.ok.cluster, R.mulU_ok (by omega), R.ok_bind, ← htot, t1, R.ok_bind]
    simp only
    rw [hlok, R.ok_bind, hm.ok.cluster]
    rfl
  · simp only
    obtain ⟨k, hk⟩ := hdv
    rw [mftBytes_length hd, hcount, hle, hk, Nat.mul_add_div (by omega), Nat.mul_div_cancel_left _ (by omega)]
  · simp only
    rw [Layout.ranges_append, Nat.zero_add]
    exact t2
  · simp only
    rw [t3]; exact ht

end Keramics.NtfsFs
