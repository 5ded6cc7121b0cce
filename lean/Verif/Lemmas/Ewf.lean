import Verif.Lemmas.Adler32
import Verif.Lemmas.Blocks
import Verif.Lemmas.EqualBlocks
import Verif.Lemmas.SparseImage
import Verif.Lemmas.Volumes
import Verif.Model.EwfImage
import Verif.Spec.Ewf

/-! # Lemmas: EWF images -/

namespace Keramics.EwfImage
open Keramics.Spec Keramics.Spec.Ewf Keramics.BlockTree

theorem checksum_eq (data : List Byte) : checksum data = .ok (adler32 1 (data.map BitVec.toNat)) := by
  obtain ⟨c, h1, -, h3⟩ := Adler32.update_spec (Adler32.Ctx.new 1#32) data
  unfold checksum
  rw [h1, R.ok_bind]
  have : c.finalize.1.toNat = adler32 1 (data.map BitVec.toNat) := h3
  rw [← this]
  rfl

theorem slice_eq_ok {l x : List Byte} {a n : Nat} : R.slice l a (a + n) = .ok x ↔ a + n ≤ l.length ∧ x = bytesAt l a n := by
  unfold R.slice
  split
  · next h =>
    rw [Nat.add_sub_cancel_left, R.ok.injEq]
    exact ⟨fun e => ⟨h.2, e.symm⟩, fun e => e.2.symm⟩
  · next h => exact ⟨fun e => (by cases e), fun e => absurd ⟨Nat.le_add_right _ _, e.1⟩ h⟩

theorem u32le_eq_ok {l : List Byte} {a x : Nat} : u32le l a = .ok x ↔ a + 4 ≤ l.length ∧ x = field l a 4 := by
  unfold u32le
  constructor
  · intro h
    obtain ⟨b, h1, h2⟩ := R.bind_eq_ok.1 h
    obtain ⟨h3, rfl⟩ := slice_eq_ok.1 h1
    exact ⟨h3, (R.ok.inj h2).symm⟩
  · rintro ⟨h, rfl⟩
    rw [slice_bytesAt h]; rfl

theorem u64le_eq_ok {l : List Byte} {a x : Nat} : u64le l a = .ok x ↔ a + 8 ≤ l.length ∧ x = field l a 8 := by
  unfold u64le
  constructor
  · intro h
    obtain ⟨b, h1, h2⟩ := R.bind_eq_ok.1 h
    obtain ⟨h3, rfl⟩ := slice_eq_ok.1 h1
    exact ⟨h3, (R.ok.inj h2).symm⟩
  · rintro ⟨h, rfl⟩
    rw [slice_bytesAt h]; rfl

theorem field_bytesAt {file : List Byte} {o n a k : Nat} (h : a + k ≤ n) : field (bytesAt file o n) a k = field file (o + a) k := by
  unfold field
  rw [bytesAt_bytesAt h]

theorem read_bytesAt {file d : List Byte} {o n : Nat} (hn : 0 < n) (h : readExactAt file o n = .ok d) : d = bytesAt file o n ∧ o + n ≤ file.length := by
  obtain ⟨h1, h2⟩ := readExactAt_eq_ok.1 h
  refine ⟨h1, ?_⟩
  rw [h1, List.length_take, List.length_drop] at h2
  omega

theorem u16le_field {data : List Byte} {a : Nat} (h : a + 2 ≤ data.length) : u16le data a = .ok (field data a 2) := by
  unfold u16le; rw [slice_bytesAt h]; rfl

theorem get_field_le {data : List Byte} {a : Nat} {b : Byte} (h : R.get data a = .ok b) : field data a 1 = b.toNat := by
  unfold R.get at h
  cases e : data[a]? with
  | none => rw [e] at h; cases h
  | some c =>
    rw [e] at h
    cases h
    obtain ⟨hl, rfl⟩ := List.getElem?_eq_some_iff.1 e
    unfold field bytesAt
    rw [List.drop_eq_getElem_cons hl, List.take_succ_cons, List.take_zero]
    simp only [leNat]
    omega

/-! ## The sections of a segment file -/

theorem readSectionHeader_ok {file : List Byte} {o : Nat} {s : Section} (h : readSectionHeader file o = .ok s) :
    o + 76 ≤ file.length ∧ Checked file o 72 ∧ s.kind = bytesAt file o 16 ∧ s.next = field file (o + 16) 8 ∧ s.size = field file (o + 24) 8 := by
  unfold readSectionHeader at h
  obtain ⟨d, h1, h⟩ := R.bind_eq_ok.1 h
  obtain ⟨rfl, hl⟩ := read_bytesAt (by omega) h1
  have hd : (bytesAt file o 76).length = 76 := bytesAt_length hl
  rw [u32le_field (by omega), R.ok_bind, slice_bytesAt' (n := 72) rfl (by omega), R.ok_bind, checksum_eq, R.ok_bind] at h
  obtain ⟨_, hc, h⟩ := R.bind_eq_ok.1 h
  rw [slice_bytesAt' (n := 16) rfl (by omega), R.ok_bind, u64le_field (by omega), R.ok_bind, u64le_field (by omega), R.ok_bind, R.pure_eq,
    R.ok.injEq] at h
  subst h
  rw [R.require_eq_ok, field_bytesAt (by omega), bytesAt_bytesAt (by omega)] at hc
  refine ⟨hl, hc, ?_, ?_, ?_⟩
  · simp only; rw [bytesAt_bytesAt (by omega)]; rfl
  · simp only; rw [field_bytesAt (by omega)]
  · simp only; rw [field_bytesAt (by omega)]

theorem kinds : kindDone = done ∧ kindNext = next ∧ kindDisk = disk ∧ kindVolume = volumeKind ∧ kindSectors = sectorsKind ∧ kindTable = tableKind := by
  decide

/-- The sections that were read are those of the file. -/
def Matches (file : List Byte) : List Section → Nat → List Spec.Ewf.Section → Prop
  | [], _, [] => True
  | s :: ss, o, t :: ts => t.start = o ∧ t.kind = s.kind ∧ t.next = s.next ∧ 76 ≤ s.size ∧ Checked file o 72 ∧ Matches file ss (o + s.size) ts
  | _, _, _ => False

theorem sectionsLoop_ok {file : List Byte} {n : Nat} (o m : Nat) (hm : file.length ≤ m + o) {secs : List Section} {final : Nat}
    (h : sectionsLoop file n o = .ok (secs, final)) : Matches file secs o (sectionsFrom file m o) := by
  induction n generalizing o m secs final with
  | zero => cases h
  | succ n ih =>
    unfold sectionsLoop at h
    by_cases ho : o < file.length
    swap
    · rw [if_neg ho, R.ok.injEq, Prod.mk.injEq] at h
      rw [← h.1]
      cases m with
      | zero => trivial
      | succ m => unfold sectionsFrom; rw [if_neg ho]; trivial
    rw [if_pos ho] at h
    obtain ⟨s, h1, h⟩ := R.bind_eq_ok.1 h
    obtain ⟨hl, hc, hk, hn, -⟩ := readSectionHeader_ok h1
    obtain ⟨⟨size, last⟩, h2, h⟩ := R.bind_eq_ok.1 h
    simp only at h
    obtain ⟨b, h3, h⟩ := R.bind_eq_ok.1 h
    obtain ⟨-, rfl⟩ := addU_eq_ok.1 h3
    obtain ⟨m, rfl⟩ : ∃ m', m = m' + 1 := ⟨m - 1, by omega⟩
    unfold sectionsFrom
    rw [if_pos ho]
    have hk' : (sectionAt file o).kind = s.kind := hk.symm
    have hn' : (sectionAt file o).next = s.next := hn.symm
    unfold sectionSize at h2
    rw [kinds.1, kinds.2.1] at h2
    rw [hk', hn']
    by_cases hlast : s.kind = done ∨ s.kind = next
    · rw [if_pos hlast] at h2
      rw [if_pos hlast]
      obtain ⟨_, -, h2⟩ := R.bind_eq_ok.1 h2
      obtain ⟨_, -, h2⟩ := R.bind_eq_ok.1 h2
      simp only [R.pure_eq, R.ok.injEq, Prod.mk.injEq] at h2
      obtain ⟨rfl, rfl⟩ := h2
      simp only [if_true, R.pure_eq, R.ok.injEq, Prod.mk.injEq] at h
      rw [← h.1]
      exact ⟨rfl, hk', hn', Nat.le_refl _, hc, trivial⟩
    · rw [if_neg hlast] at h2
      rw [if_neg hlast]
      obtain ⟨_, q1, h2⟩ := R.bind_eq_ok.1 h2
      obtain ⟨_, -, h2⟩ := R.bind_eq_ok.1 h2
      obtain ⟨_, q3, h2⟩ := R.bind_eq_ok.1 h2
      rw [R.require_eq_ok] at q1 q3
      simp only [R.pure_eq, R.ok.injEq, Prod.mk.injEq] at h2
      obtain ⟨rfl, rfl⟩ := h2
      simp only [Bool.false_eq_true, if_false] at h
      obtain ⟨⟨rest, fin⟩, h4, h⟩ := R.bind_eq_ok.1 h
      simp only [R.pure_eq, R.ok.injEq, Prod.mk.injEq] at h
      rw [← h.1]
      have hb : o + (s.next - o) = s.next := by omega
      refine ⟨rfl, hk', hn', q3, hc, ?_⟩
      simp only
      rw [hb] at h4 ⊢
      exact ih s.next m (by omega) h4

theorem readFile_ok {file : List Byte} {number : Nat} {secs : List Section} (h : readFile file = .ok (number, secs)) :
    Matches file secs 13 (sections file) := by
  unfold readFile at h
  obtain ⟨k, -, h⟩ := R.bind_eq_ok.1 h
  obtain ⟨⟨s, f⟩, h2, h⟩ := R.bind_eq_ok.1 h
  simp only at h
  obtain ⟨_, -, h⟩ := R.bind_eq_ok.1 h
  simp only [R.pure_eq, R.ok.injEq, Prod.mk.injEq] at h
  rw [← h.2]
  exact sectionsLoop_ok 13 file.length (by omega) h2

/-- The sections that were read are where they should be. -/
theorem sectionsLoop_laid {file : List Byte} {n : Nat} (o m : Nat) (hm : file.length ≤ m + o) {secs : List Section} {final : Nat}
    (h : sectionsLoop file n o = .ok (secs, final)) (hfinal : final = file.length) :
    o ≤ file.length ∧ ∀ s ∈ sectionsFrom file m o, SectionLaid file s := by
  induction n generalizing o m secs final with
  | zero => cases h
  | succ n ih =>
    unfold sectionsLoop at h
    by_cases ho : o < file.length
    swap
    · rw [if_neg ho, R.ok.injEq, Prod.mk.injEq] at h
      refine ⟨by omega, ?_⟩
      cases m with
      | zero => intro s hs; cases hs
      | succ m => unfold sectionsFrom; rw [if_neg ho]; intro s hs; cases hs
    rw [if_pos ho] at h
    obtain ⟨s, h1, h⟩ := R.bind_eq_ok.1 h
    obtain ⟨hl, hc, hk, hn, hz⟩ := readSectionHeader_ok h1
    obtain ⟨⟨size, last⟩, h2, h⟩ := R.bind_eq_ok.1 h
    simp only at h
    obtain ⟨b, h3, h⟩ := R.bind_eq_ok.1 h
    obtain ⟨-, rfl⟩ := addU_eq_ok.1 h3
    obtain ⟨m, rfl⟩ : ∃ m', m = m' + 1 := ⟨m - 1, by omega⟩
    unfold sectionsFrom
    rw [if_pos ho]
    have hk' : (sectionAt file o).kind = s.kind := hk.symm
    have hn' : (sectionAt file o).next = s.next := hn.symm
    unfold sectionSize at h2
    rw [kinds.1, kinds.2.1] at h2
    refine ⟨by omega, ?_⟩
    rw [hk']
    by_cases hlast : s.kind = done ∨ s.kind = next
    · rw [if_pos hlast] at h2
      rw [if_pos hlast]
      obtain ⟨_, q1, h2⟩ := R.bind_eq_ok.1 h2
      obtain ⟨_, q2, h2⟩ := R.bind_eq_ok.1 h2
      rw [R.require_eq_ok] at q1 q2
      simp only [R.pure_eq, R.ok.injEq, Prod.mk.injEq] at h2
      obtain ⟨rfl, rfl⟩ := h2
      simp only [if_true, R.pure_eq, R.ok.injEq, Prod.mk.injEq] at h
      intro t ht
      rw [List.mem_singleton.1 ht]
      unfold SectionLaid
      rw [hk', if_pos hlast, hn']
      rw [hz] at q1
      exact ⟨q2, by show o + 76 = _; omega, q1⟩
    · rw [if_neg hlast] at h2
      rw [if_neg hlast]
      obtain ⟨_, q1, h2⟩ := R.bind_eq_ok.1 h2
      obtain ⟨_, q2, h2⟩ := R.bind_eq_ok.1 h2
      obtain ⟨_, q3, h2⟩ := R.bind_eq_ok.1 h2
      rw [R.require_eq_ok] at q1 q2 q3
      simp only [R.pure_eq, R.ok.injEq, Prod.mk.injEq] at h2
      obtain ⟨rfl, rfl⟩ := h2
      simp only [Bool.false_eq_true, if_false] at h
      obtain ⟨⟨rest, fin⟩, h4, h⟩ := R.bind_eq_ok.1 h
      simp only [R.pure_eq, R.ok.injEq, Prod.mk.injEq] at h
      have hb : o + (s.next - o) = s.next := by omega
      rw [hb] at h4
      obtain ⟨i1, i2⟩ := ih s.next m (by omega) h4 (by omega)
      rw [hn']
      intro t ht
      rcases List.mem_cons.1 ht with rfl | ht
      · unfold SectionLaid
        rw [hk', if_neg hlast, hn']
        rw [hz] at q2
        refine ⟨show o + 76 ≤ s.next by omega, i1, ?_⟩
        show field file (o + 24) 8 = 0 ∨ o + field file (o + 24) 8 = s.next
        omega
      · exact i2 t ht

theorem readFile_laid {file : List Byte} {number : Nat} {secs : List Section} (h : readFile file = .ok (number, secs)) : Laid number file := by
  unfold readFile at h
  obtain ⟨k, h1, h⟩ := R.bind_eq_ok.1 h
  obtain ⟨⟨s, f⟩, h2, h⟩ := R.bind_eq_ok.1 h
  simp only at h
  obtain ⟨_, h3, h⟩ := R.bind_eq_ok.1 h
  simp only [R.pure_eq, R.ok.injEq, Prod.mk.injEq] at h
  obtain ⟨rfl, -⟩ := h
  unfold readFileHeader at h1
  obtain ⟨d, g1, h1⟩ := R.bind_eq_ok.1 h1
  obtain ⟨rfl, hl⟩ := read_bytesAt (by omega) g1
  have hd : (bytesAt file 0 13).length = 13 := bytesAt_length hl
  rw [slice_bytesAt' (n := 8) rfl (by omega), R.ok_bind] at h1
  obtain ⟨_, q1, h1⟩ := R.bind_eq_ok.1 h1
  obtain ⟨b, q2, h1⟩ := R.bind_eq_ok.1 h1
  obtain ⟨_, q3, h1⟩ := R.bind_eq_ok.1 h1
  rw [slice_bytesAt' (n := 2) rfl (by omega), R.ok_bind] at h1
  obtain ⟨_, q4, h1⟩ := R.bind_eq_ok.1 h1
  rw [u16le_field (by omega), field_bytesAt (by omega), R.ok.injEq] at h1
  rw [R.require_eq_ok, bytesAt_bytesAt (by omega)] at q1 q4
  rw [R.require_eq_ok] at q3
  refine ⟨q1, ?_, h1, ?_, (sectionsLoop_laid 13 file.length (by omega) h2 (by rw [R.require_eq_ok] at h3; exact h3)).2⟩
  · have := get_field_le q2
    rw [field_bytesAt (by omega), q3] at this
    exact this
  · show leNat (bytesAt file 11 2) = 0
    rw [show (11 : Nat) = 0 + 11 from rfl, q4]
    rfl

/-! ## Tables -/

theorem readEntries_ok {data : List Byte} (n o : Nat) {es : List Nat} (h : readEntries data n o = .ok es) :
    es = (List.range n).map fun i => field data (o + 4 * i) 4 := by
  induction n generalizing o es with
  | zero => simp only [readEntries, R.ok.injEq] at h; rw [← h]; rfl
  | succ n ih =>
    unfold readEntries at h
    obtain ⟨d, h1, h⟩ := R.bind_eq_ok.1 h
    obtain ⟨hl, rfl⟩ := slice_eq_ok.1 h1
    obtain ⟨e, h2, h⟩ := R.bind_eq_ok.1 h
    obtain ⟨-, rfl⟩ := u32le_eq_ok.1 h2
    obtain ⟨rest, h3, h⟩ := R.bind_eq_ok.1 h
    simp only [R.pure_eq, R.ok.injEq] at h
    rw [← h, ih _ h3, field_bytesAt (by omega), List.range_succ_eq_map, List.map_cons, List.map_map]
    congr 1
    apply List.map_congr_left
    intro i _
    simp only [Function.comp]
    congr 1
    omega

theorem readTable_ok {file : List Byte} {p n base : Nat} {es : List Nat} (h : readTable file p n = .ok (base, es)) :
    base = field file (p + 8) 8 ∧ es = entries file p ∧ Checked file p 20 ∧ Checked file (p + 24) (4 * field file p 4) := by
  unfold readTable at h
  obtain ⟨_, hn, h⟩ := R.bind_eq_ok.1 h
  rw [R.require_eq_ok] at hn
  obtain ⟨d, h1, h⟩ := R.bind_eq_ok.1 h
  obtain ⟨rfl, hl⟩ := read_bytesAt (by omega) h1
  have hd : (bytesAt file p n).length = n := bytesAt_length hl
  rw [u32le_field (by omega), R.ok_bind, slice_bytesAt' (n := 20) rfl (by omega), R.ok_bind, checksum_eq, R.ok_bind] at h
  obtain ⟨_, hc1, h⟩ := R.bind_eq_ok.1 h
  rw [R.require_eq_ok, field_bytesAt (by omega), bytesAt_bytesAt (by omega)] at hc1
  rw [u32le_field (by omega), R.ok_bind, u64le_field (by omega), R.ok_bind, field_bytesAt (by omega), field_bytesAt (by omega)] at h
  rw [Nat.add_zero] at h hc1
  generalize hN : field file p 4 = N at *
  obtain ⟨f, h2, h⟩ := R.bind_eq_ok.1 h
  obtain ⟨hl2, rfl⟩ := slice_eq_ok.1 h2
  rw [hd] at hl2
  obtain ⟨st, h3, h⟩ := R.bind_eq_ok.1 h
  obtain ⟨-, rfl⟩ := u32le_eq_ok.1 h3
  rw [slice_bytesAt (by omega), R.ok_bind, checksum_eq, R.ok_bind] at h
  obtain ⟨_, hc2, h⟩ := R.bind_eq_ok.1 h
  rw [R.require_eq_ok, field_bytesAt (by omega), field_bytesAt (by omega), bytesAt_bytesAt (by omega)] at hc2
  obtain ⟨es', h4, h⟩ := R.bind_eq_ok.1 h
  simp only [R.pure_eq, R.ok.injEq, Prod.mk.injEq] at h
  obtain ⟨rfl, rfl⟩ := h
  refine ⟨rfl, ?_, hc1, ?_⟩
  · rw [readEntries_ok _ _ h4]
    unfold entries
    rw [hN]
    apply List.map_congr_left
    intro i hi
    rw [List.mem_range] at hi
    rw [field_bytesAt (by omega)]
    congr 1; omega
  · unfold Checked
    rw [Nat.mul_comm 4, ← hc2]
    congr 1; omega

/-- The range of a chunk. -/
def toRange (size k : Nat) (c : Chunk) : Range := ⟨k * size, c.segment, c.offset, c.size % 2 ^ 32, c.compressed⟩

/-- The numbers and ranges of chunks. -/
def numbered (size : Nat) : Nat → List Chunk → List (Nat × Range)
  | _, [] => []
  | k, c :: cs => (k, toRange size k c) :: numbered size (k + 1) cs

theorem numbered_append (size k : Nat) (a b : List Chunk) : numbered size k (a ++ b) = numbered size k a ++ numbered size (k + a.length) b := by
  induction a generalizing k with
  | nil => rfl
  | cons x a ih =>
    rw [List.cons_append, numbered, numbered, ih, List.cons_append, List.length_cons]
    congr 3; omega

theorem mem_numbered {size k j : Nat} {r : Range} {cs : List Chunk} :
    (j, r) ∈ numbered size k cs ↔ k ≤ j ∧ ∃ c, cs[j - k]? = some c ∧ r = toRange size j c := by
  induction cs generalizing k with
  | nil => simp [numbered]
  | cons x cs ih =>
    rw [numbered, List.mem_cons, ih, Prod.mk.injEq]
    constructor
    · rintro (⟨rfl, rfl⟩ | ⟨h1, c, h2, h3⟩)
      · exact ⟨Nat.le_refl _, x, by simp, rfl⟩
      · refine ⟨by omega, c, ?_, h3⟩
        rw [show j - k = (j - (k + 1)) + 1 by omega, List.getElem?_cons_succ]
        exact h2
    · rintro ⟨h1, c, h2, h3⟩
      rcases Nat.eq_or_lt_of_le h1 with rfl | h
      · rw [Nat.sub_self, List.getElem?_cons_zero, Option.some.injEq] at h2
        subst h2
        exact Or.inl ⟨rfl, h3⟩
      · refine Or.inr ⟨h, c, ?_, h3⟩
        rw [show j - k = (j - (k + 1)) + 1 by omega, List.getElem?_cons_succ] at h2
        exact h2

/-- A tree with the first chunks. -/
structure TreeOk (size : Nat) (cs : List Chunk) (t : BlockTree.Tree Range) : Prop where
  holds : Holds t (blocksOf size (numbered size 0 cs))
  block : BlockOk t
  covers : size = t.leafSize * t.perNode
  fits : cs.length * size ≤ t.dataSize

theorem insert_chunk {size : Nat} {cs : List Chunk} {t t' : BlockTree.Tree Range} (h : TreeOk size cs t) {c : Chunk}
    (hi : BlockTree.insert t (cs.length * size) size (toRange size cs.length c) = .ok t') : TreeOk size (cs ++ [c]) t' := by
  have hadd : cs.length * size + size < 2 ^ 64 := by
    unfold BlockTree.insert at hi
    obtain ⟨_, h1, -⟩ := R.bind_eq_ok.1 hi
    exact (addU_eq_ok.1 h1).1
  rcases insert_number h.holds h.block (b := cs.length) (v := toRange size cs.length c) h.covers hadd with ⟨hc, t'', e, hh, hb, d1, d2, d3⟩ | ⟨-, e⟩
  · rw [hi, R.ok.injEq] at e
    subst e
    refine ⟨?_, hb, by rw [d2, d3]; exact h.covers, ?_⟩
    · rw [numbered_append, Nat.zero_add]; exact hh
    · rw [d1, List.length_append, List.length_singleton, Nat.succ_mul]
      exact hc.1
  · rw [hi] at e; cases e

theorem compressed_eq {e : Nat} (h : e < 2 ^ 32) : decide (e / 2 ^ 31 % 2 = 1) = decide (2 ^ 31 ≤ e) := by
  rw [decide_eq_decide]
  omega

theorem tableLoop_ok {segment base last size : Nat} (rest : List Nat) {e : Nat} {over : Bool} {cs : List Chunk} {t t' : BlockTree.Tree Range} {media : Nat}
    (hr : ∀ x ∈ rest, x < 2 ^ 32) (h : TreeOk size cs t)
    (hok : tableLoop segment base last size rest e over (cs.length * size) t = .ok (t', media)) :
    let ds := chunksOf segment base last ((entryOffset over e, entryCompressed over e) :: placesFrom (entryOffset over e) over rest)
    TreeOk size (cs ++ ds) t' ∧ media = (cs ++ ds).length * size := by
  induction rest generalizing e over cs t with
  | nil =>
    unfold tableLoop at hok
    obtain ⟨o, h1, hok⟩ := R.bind_eq_ok.1 hok
    obtain ⟨-, rfl⟩ := addU_eq_ok.1 h1
    obtain ⟨sz, h2, hok⟩ := R.bind_eq_ok.1 hok
    obtain ⟨hle, rfl⟩ := subU_eq_ok.1 h2
    obtain ⟨t1, h3, hok⟩ := R.bind_eq_ok.1 hok
    obtain ⟨m, h4, hok⟩ := R.bind_eq_ok.1 hok
    obtain ⟨-, rfl⟩ := addU_eq_ok.1 h4
    simp only [R.pure_eq, R.ok.injEq, Prod.mk.injEq] at hok
    obtain ⟨rfl, rfl⟩ := hok
    simp only [placesFrom, chunksOf]
    refine ⟨insert_chunk (c := ⟨segment, base + entryOffset over e, last - (base + entryOffset over e), entryCompressed over e⟩) h h3, ?_⟩
    rw [List.length_append, List.length_singleton, Nat.succ_mul]
  | cons x rest ih =>
    unfold tableLoop at hok
    obtain ⟨sz, h1, hok⟩ := R.bind_eq_ok.1 hok
    obtain ⟨o, h2, hok⟩ := R.bind_eq_ok.1 hok
    obtain ⟨-, rfl⟩ := addU_eq_ok.1 h2
    obtain ⟨t1, h3, hok⟩ := R.bind_eq_ok.1 hok
    obtain ⟨m, h4, hok⟩ := R.bind_eq_ok.1 hok
    obtain ⟨-, rfl⟩ := addU_eq_ok.1 h4
    obtain ⟨b, h5, hok⟩ := R.bind_eq_ok.1 hok
    obtain ⟨hb, rfl⟩ := addU_eq_ok.1 h5
    have hx := hr x (by simp)
    have hsz : sz % 2 ^ 32 = sz := Nat.mod_eq_of_lt (by omega)
    generalize hcur : entryOffset over e = cur at *
    -- the next place and the size of the chunk
    have key : ∃ q c over', placesFrom cur over (x :: rest) = (q, c) :: placesFrom q over' rest ∧ sz = q - cur ∧
        (over || decide (2 ^ 31 - 1 < cur + sz)) = over' ∧ entryOffset over' x = q ∧ entryCompressed over' x = c := by
      unfold chunkSize at h1
      rw [placesFrom]
      by_cases hlt : over = false ∧ cur < x % 2 ^ 31
      · rw [if_pos hlt]
        obtain ⟨rfl, hlt⟩ := hlt
        have hoff : entryOffset false x = x % 2 ^ 31 := rfl
        rw [hoff, if_pos hlt, R.ok.injEq] at h1
        refine ⟨_, _, false, rfl, h1.symm, ?_, rfl, compressed_eq hx⟩
        rw [Bool.false_or, decide_eq_false_iff_not]
        omega
      · rw [if_neg hlt]
        refine ⟨_, _, true, rfl, ?_, ?_, rfl, rfl⟩
        · cases over with
          | true =>
            have hoff : entryOffset true x = x := rfl
            rw [hoff] at h1
            by_cases hc : cur < x
            · rw [if_pos hc, R.ok.injEq] at h1; exact h1.symm
            · rw [if_neg hc, if_neg hc] at h1; cases h1
          | false =>
            have hoff : entryOffset false x = x % 2 ^ 31 := rfl
            have hn : ¬ cur < x % 2 ^ 31 := fun h => hlt ⟨rfl, h⟩
            rw [hoff, if_neg hn] at h1
            by_cases hc : cur < x
            · rw [if_pos hc, R.ok.injEq] at h1; exact h1.symm
            · rw [if_neg hc] at h1; cases h1
        · cases over with
          | true => rfl
          | false =>
            have hoff : entryOffset false x = x % 2 ^ 31 := rfl
            have hn : ¬ cur < x % 2 ^ 31 := fun h => hlt ⟨rfl, h⟩
            rw [hoff, if_neg hn] at h1
            by_cases hc : cur < x
            · rw [if_pos hc, R.ok.injEq] at h1
              rw [Bool.false_or, decide_eq_true_iff]
              omega
            · rw [if_neg hc] at h1; cases h1
    obtain ⟨q, c, over', k1, k2, k3, k4, k5⟩ := key
    rw [k3] at hok
    have h3' : BlockTree.insert t (cs.length * size) size (toRange size cs.length ⟨segment, base + cur, q - cur, entryCompressed over e⟩) = .ok t1 := by
      unfold toRange
      simp only
      rw [← k2, hsz]
      exact h3
    have h6 := insert_chunk h h3'
    have hlen : (cs ++ [(⟨segment, base + cur, q - cur, entryCompressed over e⟩ : Chunk)]).length * size = cs.length * size + size := by
      rw [List.length_append, List.length_singleton, Nat.succ_mul]
    rw [← hlen] at hok
    have := ih (fun y hy => hr y (by simp [hy])) h6 hok
    rw [k1]
    simp only [chunksOf]
    rw [k4, k5] at this
    simp only [List.append_assoc, List.singleton_append] at this
    exact this

/-! ## The sections of an image -/

/-- What is known while the sections are read: the volume and the chunks so far. -/
structure Inv (v : Volume) (cs : List Chunk) (s : State) : Prop where
  block : s.blockSize = v.chunkSize
  media : s.mediaSize = v.mediaSize
  position : s.media = cs.length * v.chunkSize
  tree : v.chunkSize ≠ 0 → v.mediaSize ≠ 0 → TreeOk v.chunkSize cs s.tree
  empty : v.chunkSize = 0 ∨ v.mediaSize = 0 → cs = []

theorem Inv.withLast {v : Volume} {cs : List Chunk} {s : State} (h : Inv v cs s) (b : Bool) : Inv v cs { s with last := b } :=
  ⟨h.block, h.media, h.position, h.tree, h.empty⟩

theorem entries_lt (file : List Byte) (o : Nat) : ∀ e ∈ entries file o, e < 2 ^ 32 := by
  intro e he
  unfold entries at he
  obtain ⟨i, -, rfl⟩ := List.mem_map.1 he
  exact Mbr.field_lt _ _ _

theorem readTableSection_ok {segment : Nat} {file : List Byte} {o : Nat} {s : Section} {sectors : Option Nat} {v : Volume} {cs : List Chunk}
    {st st' : State} (h : Inv v cs st) (hok : readTableSection segment file o s sectors st = .ok st') :
    Inv v (cs ++ Spec.Ewf.tableChunks segment file (o + 76, sectors.getD s.next)) st' ∧ st'.last = st.last ∧ Checked file (o + 76) 20 ∧
      Checked file (o + 76 + 24) (4 * field file (o + 76) 4) := by
  unfold readTableSection at hok
  obtain ⟨_, h1, hok⟩ := R.bind_eq_ok.1 hok
  rw [R.require_eq_ok, h.block, h.media] at h1
  obtain ⟨ds, -, hok⟩ := R.bind_eq_ok.1 hok
  obtain ⟨p, h2, hok⟩ := R.bind_eq_ok.1 hok
  obtain ⟨-, rfl⟩ := addU_eq_ok.1 h2
  obtain ⟨⟨base, es⟩, h3, hok⟩ := R.bind_eq_ok.1 hok
  obtain ⟨rfl, rfl, c1, c2⟩ := readTable_ok h3
  simp only at hok
  obtain ⟨⟨t, m⟩, h4, hok⟩ := R.bind_eq_ok.1 hok
  simp only [R.pure_eq, R.ok.injEq] at hok
  subst hok
  have hlt := entries_lt file (o + 76)
  unfold EwfImage.tableChunks at h4
  cases he : entries file (o + 76) with
  | nil => rw [he] at h4; cases h4
  | cons e rest =>
    rw [he] at h4 hlt
    simp only at h4
    rw [h.position, h.block] at h4
    obtain ⟨g1, g2⟩ := tableLoop_ok rest (fun x hx => hlt x (by simp [hx])) (h.tree (by tauto) (by tauto)) h4
    have hds : Spec.Ewf.tableChunks segment file (o + 76, sectors.getD s.next) =
        chunksOf segment (field file (o + 76 + 8) 8) (sectors.getD s.next)
          ((entryOffset false e, entryCompressed false e) :: placesFrom (entryOffset false e) false rest) := by
      unfold Spec.Ewf.tableChunks
      simp only
      rw [he]
      unfold places
      have : entryCompressed false e = decide (2 ^ 31 ≤ e) := compressed_eq (hlt e (by simp))
      rw [this]
      rfl
    rw [hds]
    exact ⟨⟨h.block, h.media, g2, fun _ _ => g1, fun hz => absurd hz h1⟩, rfl, c1, c2⟩

theorem readVolume_ok {file : List Byte} {p n : Nat} (hn : 20 ≤ n) {r : Nat × Nat × Nat × Nat} (h : readVolume file p n = .ok r) :
    r = ((volumeAt file p).chunks, (volumeAt file p).sectorsPerChunk, (volumeAt file p).bytesPerSector, (volumeAt file p).sectors) ∧ Checked file p n := by
  unfold readVolume at h
  obtain ⟨d, h1, h⟩ := R.bind_eq_ok.1 h
  obtain ⟨rfl, hl⟩ := read_bytesAt (by omega) h1
  have hd : (bytesAt file p (n + 4)).length = n + 4 := bytesAt_length hl
  rw [u32le_field (by omega), R.ok_bind, slice_bytesAt' (n := n) (by omega) (by omega), R.ok_bind, checksum_eq, R.ok_bind] at h
  obtain ⟨_, hc, h⟩ := R.bind_eq_ok.1 h
  rw [R.require_eq_ok, field_bytesAt (by omega), bytesAt_bytesAt (by omega)] at hc
  rw [u32le_field (by omega), R.ok_bind, u32le_field (by omega), R.ok_bind, u32le_field (by omega), R.ok_bind, u32le_field (by omega), R.ok_bind,
    R.pure_eq, R.ok.injEq] at h
  subst h
  refine ⟨?_, hc⟩
  rw [field_bytesAt (by omega), field_bytesAt (by omega), field_bytesAt (by omega), field_bytesAt (by omega)]
  rfl

theorem readVolumeSection_ok {segment : Nat} {file : List Byte} {o : Nat} {s : Section} {v : Volume} {cs : List Chunk}
    {st st' : State} (h : Inv v cs st) (hok : readVolumeSection segment file o s st = .ok st') :
    segment = 1 ∧ Inv (volumeAt file (o + 76)) cs st' ∧ st'.last = st.last := by
  unfold readVolumeSection at hok
  obtain ⟨_, h1, hok⟩ := R.bind_eq_ok.1 hok
  obtain ⟨_, h2, hok⟩ := R.bind_eq_ok.1 hok
  rw [R.require_eq_ok] at h1 h2
  obtain ⟨n, h3, hok⟩ := R.bind_eq_ok.1 hok
  obtain ⟨p, h4, hok⟩ := R.bind_eq_ok.1 hok
  obtain ⟨-, rfl⟩ := addU_eq_ok.1 h4
  have hn : 20 ≤ n := by
    unfold volumeSize at h3
    split at h3
    · simp only [R.ok.injEq] at h3; omega
    · split at h3
      · simp only [R.ok.injEq] at h3; omega
      · cases h3
  obtain ⟨r, h5, hok⟩ := R.bind_eq_ok.1 hok
  obtain ⟨rfl, -⟩ := readVolume_ok hn h5
  simp only at hok
  generalize volumeAt file (o + 76) = w at *
  obtain ⟨bs, h6, hok⟩ := R.bind_eq_ok.1 hok
  obtain ⟨b6, rfl⟩ := mulU_eq_ok.1 h6
  obtain ⟨ms, h7, hok⟩ := R.bind_eq_ok.1 hok
  obtain ⟨b7, rfl⟩ := mulU_eq_ok.1 h7
  obtain ⟨ts, h8, hok⟩ := R.bind_eq_ok.1 hok
  obtain ⟨b8, rfl⟩ := mulU_eq_ok.1 h8
  simp only [R.pure_eq, R.ok.injEq] at hok
  subst hok
  have hz : cs = [] := h.empty (Or.inl (by rw [← h.block]; tauto))
  subst hz
  refine ⟨h1, ⟨rfl, rfl, ?_, fun hc _ => ?_, fun _ => rfl⟩, rfl⟩
  · have := h.position
    simp only [List.length_nil, Nat.zero_mul] at this ⊢
    exact this
  · have hb : 0 < w.bytesPerSector := by
      rcases Nat.eq_zero_or_pos w.bytesPerSector with e | e
      · exact absurd (by unfold Volume.chunkSize; rw [e, Nat.mul_zero]) hc
      · exact e
    have hs : 0 < w.sectorsPerChunk := by
      rcases Nat.eq_zero_or_pos w.sectorsPerChunk with e | e
      · exact absurd (by unfold Volume.chunkSize; rw [e, Nat.zero_mul]) hc
      · exact e
    refine ⟨new_holds _ _ _ hb, new_blockOk hs (Nat.lt_of_lt_of_le b6 (by omega)) b8, ?_, by simp⟩
    show _ = w.bytesPerSector * w.sectorsPerChunk
    rw [Nat.mul_comm]; rfl

/-- The flag behind sections. -/
def lastFrom (b : Bool) : List Spec.Ewf.Section → Bool
  | [] => b
  | s :: rest => if s.kind = done then lastFrom true rest else if s.kind = next then lastFrom false rest else lastFrom b rest

theorem distinct : disk ≠ done ∧ disk ≠ next ∧ disk ≠ sectorsKind ∧ disk ≠ tableKind ∧ volumeKind ≠ done ∧ volumeKind ≠ next ∧
    volumeKind ≠ sectorsKind ∧ volumeKind ≠ tableKind ∧ done ≠ next ∧ done ≠ sectorsKind ∧ done ≠ tableKind ∧ next ≠ sectorsKind ∧
    next ≠ tableKind ∧ sectorsKind ≠ tableKind := by decide

theorem runSections_ok {other : Nat → Nat → Section → R Unit} {segment : Nat} {file : List Byte} (secs : List Section)
    {o : Nat} {sectors : Option Nat} {v : Volume} {cs : List Chunk} {st st' : State} {ts : List Spec.Ewf.Section} (hm : Matches file secs o ts)
    (h : Inv v cs st) (hok : runSections other segment file secs o sectors st = .ok st') :
    Inv (volumeFrom file v ts) (cs ++ (tablesFrom sectors ts).flatMap (Spec.Ewf.tableChunks segment file)) st' ∧ st'.last = lastFrom st.last ts ∧
      (segment ≠ 1 → volumeFrom file v ts = v) ∧
      (∀ s ∈ ts, Checked file s.start 72) ∧
      ∀ t ∈ tablesFrom sectors ts, Checked file t.1 20 ∧ Checked file (t.1 + 24) (4 * field file t.1 4) := by
  induction secs generalizing o sectors v cs st ts with
  | nil =>
    cases ts with
    | cons t ts => exact absurd hm id
    | nil =>
      simp only [runSections, R.ok.injEq] at hok
      subst hok
      exact ⟨by simpa [volumeFrom, tablesFrom] using h, rfl, fun _ => rfl, by simp, by simp [tablesFrom]⟩
  | cons s secs ih =>
    cases ts with
    | nil => exact absurd hm id
    | cons t ts =>
      obtain ⟨rfl, m2, m3, m4, m5, m6⟩ := hm
      unfold runSections at hok
      obtain ⟨⟨st1, sec1⟩, h1, hok⟩ := R.bind_eq_ok.1 hok
      simp only at hok
      obtain ⟨o1, h2, hok⟩ := R.bind_eq_ok.1 hok
      obtain ⟨-, rfl⟩ := addU_eq_ok.1 h2
      obtain ⟨k1, k2, k3, k4, k5, k6⟩ := kinds
      obtain ⟨d1, d2, d3, d4, d5, d6, d7, d8, d9, d10, d11, d12, d13, d14⟩ := distinct
      unfold sectionStep at h1
      rw [k1, k2, k3, k4, k5, k6, ← m2] at h1
      unfold volumeFrom tablesFrom lastFrom
      by_cases e1 : t.kind = disk ∨ t.kind = volumeKind
      · rw [if_pos e1] at h1
        have n1 : t.kind ≠ done := by rcases e1 with e | e <;> rw [e] <;> assumption
        have n2 : t.kind ≠ next := by rcases e1 with e | e <;> rw [e] <;> assumption
        have n3 : t.kind ≠ sectorsKind := by rcases e1 with e | e <;> rw [e] <;> assumption
        have n4 : t.kind ≠ tableKind := by rcases e1 with e | e <;> rw [e] <;> assumption
        rw [if_pos e1, if_neg n1, if_neg n2, if_neg n3, if_neg n4]
        obtain ⟨st2, h3, h1⟩ := R.bind_eq_ok.1 h1
        simp only [R.pure_eq, R.ok.injEq, Prod.mk.injEq] at h1
        obtain ⟨rfl, rfl⟩ := h1
        obtain ⟨g1, g2, g3⟩ := readVolumeSection_ok h h3
        obtain ⟨i1, i2, i3, i4, i5⟩ := ih m6 g2 hok
        refine ⟨i1, by rw [i2, g3], fun hs => absurd g1 hs, ?_, i5⟩
        intro s hs
        rcases List.mem_cons.1 hs with rfl | hs
        · exact m5
        · exact i4 s hs
      rw [if_neg e1] at h1
      rw [if_neg e1]
      by_cases e2 : t.kind = done
      · rw [if_pos e2] at h1
        rw [if_pos e2, if_neg (by rw [e2]; assumption), if_neg (by rw [e2]; assumption)]
        simp only [R.ok.injEq, Prod.mk.injEq] at h1
        obtain ⟨rfl, rfl⟩ := h1
        obtain ⟨i1, i2, i3, i4, i5⟩ := ih m6 (h.withLast _) hok
        refine ⟨i1, i2, i3, ?_, i5⟩
        intro s hs
        rcases List.mem_cons.1 hs with rfl | hs
        · exact m5
        · exact i4 s hs
      rw [if_neg e2] at h1
      rw [if_neg e2]
      by_cases e3 : t.kind = next
      · rw [if_pos e3] at h1
        rw [if_pos e3, if_neg (by rw [e3]; assumption), if_neg (by rw [e3]; assumption)]
        simp only [R.ok.injEq, Prod.mk.injEq] at h1
        obtain ⟨rfl, rfl⟩ := h1
        obtain ⟨i1, i2, i3, i4, i5⟩ := ih m6 (h.withLast _) hok
        refine ⟨i1, i2, i3, ?_, i5⟩
        intro s hs
        rcases List.mem_cons.1 hs with rfl | hs
        · exact m5
        · exact i4 s hs
      rw [if_neg e3] at h1
      rw [if_neg e3]
      by_cases e4 : t.kind = sectorsKind
      · rw [if_pos e4] at h1
        rw [if_pos e4]
        simp only [R.ok.injEq, Prod.mk.injEq] at h1
        obtain ⟨rfl, rfl⟩ := h1
        rw [← m3] at hok
        obtain ⟨i1, i2, i3, i4, i5⟩ := ih m6 h hok
        refine ⟨i1, i2, i3, ?_, i5⟩
        intro s hs
        rcases List.mem_cons.1 hs with rfl | hs
        · exact m5
        · exact i4 s hs
      rw [if_neg e4] at h1
      rw [if_neg e4]
      by_cases e5 : t.kind = tableKind
      · rw [if_pos e5] at h1
        rw [if_pos e5]
        obtain ⟨st2, h3, h1⟩ := R.bind_eq_ok.1 h1
        simp only [R.pure_eq, R.ok.injEq, Prod.mk.injEq] at h1
        obtain ⟨rfl, rfl⟩ := h1
        obtain ⟨g1, g2, g3, g4⟩ := readTableSection_ok h h3
        obtain ⟨i1, i2, i3, i4, i5⟩ := ih m6 g1 hok
        rw [m3, List.flatMap_cons, ← List.append_assoc]
        refine ⟨i1, by rw [i2, g2], i3, ?_, ?_⟩
        · intro s hs
          rcases List.mem_cons.1 hs with rfl | hs
          · exact m5
          · exact i4 s hs
        · intro x hx
          rcases List.mem_cons.1 hx with rfl | hx
          · exact ⟨g3, g4⟩
          · exact i5 x hx
      rw [if_neg e5] at h1
      rw [if_neg e5]
      obtain ⟨_, h3, h1⟩ := R.bind_eq_ok.1 h1
      simp only [R.pure_eq, R.ok.injEq, Prod.mk.injEq] at h1
      obtain ⟨rfl, rfl⟩ := h1
      obtain ⟨i1, i2, i3, i4, i5⟩ := ih m6 h hok
      refine ⟨i1, i2, i3, ?_, i5⟩
      intro s hs
      rcases List.mem_cons.1 hs with rfl | hs
      · exact m5
      · exact i4 s hs

theorem lastFrom_sections (file : List Byte) (n o : Nat) :
    lastFrom false (sectionsFrom file n o) = true ↔ ∃ s ∈ sectionsFrom file n o, s.kind = done := by
  induction n generalizing o with
  | zero => simp [sectionsFrom, lastFrom]
  | succ n ih =>
    unfold sectionsFrom
    split
    · split
      · next h =>
        by_cases hd : (sectionAt file o).kind = done
        · simp [lastFrom, hd]
        · simp [lastFrom, hd]
      · next h =>
        rw [not_or] at h
        unfold lastFrom
        rw [if_neg h.1, if_neg h.2, ih]
        simp [h.1]
    · simp [lastFrom]

/-! ## The segments of an image -/

theorem chunksFrom_append (k : Nat) (a b : List (List Byte)) : chunksFrom k (a ++ b) = chunksFrom k a ++ chunksFrom (k + a.length) b := by
  induction a generalizing k with
  | nil => rfl
  | cons x a ih =>
    rw [List.cons_append, chunksFrom, chunksFrom, ih, List.append_assoc, List.length_cons]
    congr 3; omega

theorem chunksOf_segment {segment base last : Nat} {ps : List (Nat × Bool)} {c : Chunk} (h : c ∈ chunksOf segment base last ps) :
    c.segment = segment := by
  induction ps with
  | nil => cases h
  | cons p ps ih =>
    cases ps with
    | nil => rw [chunksOf, List.mem_singleton] at h; rw [h]
    | cons q ps =>
      rw [chunksOf, List.mem_cons] at h
      rcases h with rfl | h
      · rfl
      · exact ih h

theorem chunksFrom_segment {k : Nat} {segs : List (List Byte)} {c : Chunk} (h : c ∈ chunksFrom k segs) :
    k ≤ c.segment ∧ c.segment < k + segs.length := by
  induction segs generalizing k with
  | nil => cases h
  | cons file segs ih =>
    rw [chunksFrom, List.mem_append] at h
    rw [List.length_cons]
    rcases h with h | h
    · unfold segmentChunks at h
      obtain ⟨t, -, h⟩ := List.mem_flatMap.1 h
      have := chunksOf_segment h
      omega
    · have := ih h
      omega

/-- The cache after `k` segments: it has the last 16 of them. -/
structure CacheIs (segs : List (List Byte)) (k : Nat) (c : Files) : Prop where
  capacity : c.numberOfEntries = 16
  usage : c.usage = List.range' (k - 16 + 1) (k - (k - 16))
  values : ∀ j, c.values j = if k - 16 < j ∧ j ≤ k then some segs[j - 1]? else none

theorem new_cacheIs (segs : List (List Byte)) : CacheIs segs 0 (LruCache.new 16) := by
  refine ⟨rfl, rfl, fun j => ?_⟩
  rw [if_neg (by omega)]
  rfl

theorem insert_cacheIs {segs : List (List Byte)} {k : Nat} {c c' : Files} (h : CacheIs segs k c) {file : List Byte} (hf : segs[k]? = some file)
    (hi : c.insert (k + 1) (some file) = .ok c') : CacheIs segs (k + 1) c' := by
  unfold LruCache.Cache.insert at hi
  have hl : c.usage.length = k - (k - 16) := by rw [h.usage, List.length_range']
  rw [h.capacity, hl] at hi
  by_cases hk : k - (k - 16) = 16
  · rw [if_pos hk, h.usage, hk, List.range'_succ] at hi
    simp only [R.ok_bind, R.pure_eq, R.ok.injEq] at hi
    subst hi
    refine ⟨rfl, ?_, fun j => ?_⟩
    · simp only
      rw [show k + 1 - (k + 1 - 16) = 15 + 1 by omega, show k + 1 - 16 + 1 = k - 16 + 1 + 1 by omega,
        List.range'_1_concat (n := 15), show k - 16 + 1 + 1 + 15 = k + 1 by omega]
    · simp only
      by_cases e : j = k + 1
      · rw [if_pos e, if_pos (by omega), e, Nat.add_sub_cancel, hf]
      · rw [if_neg e]
        by_cases e2 : j = k - 16 + 1
        · rw [if_pos e2, if_neg (by omega)]
        · rw [if_neg e2, h.values]
          by_cases e3 : k - 16 < j ∧ j ≤ k
          · rw [if_pos e3, if_pos (by omega)]
          · rw [if_neg e3, if_neg (by omega)]
  · rw [if_neg hk] at hi
    simp only [R.ok_bind, R.pure_eq, R.ok.injEq] at hi
    subst hi
    refine ⟨h.capacity, ?_, fun j => ?_⟩
    · simp only
      rw [h.usage, show k + 1 - (k + 1 - 16) = k - (k - 16) + 1 by omega, List.range'_1_concat, show k + 1 - 16 + 1 = k - 16 + 1 by omega]
      congr 2; omega
    · simp only
      by_cases e : j = k + 1
      · rw [if_pos e, if_pos (by omega), e, Nat.add_sub_cancel, hf]
      · rw [if_neg e, h.values]
        by_cases e3 : k - 16 < j ∧ j ≤ k
        · rw [if_pos e3, if_pos (by omega)]
        · rw [if_neg e3, if_neg (by omega)]

/-- The layout of a segment, and the checksums of its section headers and tables. -/
def FileChecked (number : Nat) (file : List Byte) : Prop :=
  Laid number file ∧ (∀ s ∈ sections file, Checked file s.start 72) ∧
    ∀ t ∈ tablesFrom none (sections file), Checked file t.1 20 ∧ Checked file (t.1 + 24) (4 * field file t.1 4)

theorem readSegment_ok {other : Nat → Nat → Section → R Unit} {k : Nat} {file : List Byte} {v : Volume} {cs : List Chunk} {st st' : State} {c c' : Files}
    (h : Inv v cs st) (hok : readSegment other k file st c = .ok (st', c')) :
    Inv (volumeFrom file v (sections file)) (cs ++ segmentChunks k file) st' ∧ st'.last = lastFrom st.last (sections file) ∧
      (k ≠ 1 → volumeFrom file v (sections file) = v) ∧ FileChecked k file ∧ c.insert k (some file) = .ok c' := by
  unfold readSegment at hok
  obtain ⟨⟨number, secs⟩, h1, hok⟩ := R.bind_eq_ok.1 hok
  simp only at hok
  obtain ⟨_, hnum, hok⟩ := R.bind_eq_ok.1 hok
  rw [R.require_eq_ok] at hnum
  subst hnum
  obtain ⟨s1, h2, hok⟩ := R.bind_eq_ok.1 hok
  obtain ⟨c1, h3, hok⟩ := R.bind_eq_ok.1 hok
  simp only [R.pure_eq, R.ok.injEq, Prod.mk.injEq] at hok
  obtain ⟨rfl, rfl⟩ := hok
  obtain ⟨i1, i2, i3, i4, i5⟩ := runSections_ok secs (readFile_ok h1) h h2
  exact ⟨i1, i2, i3, ⟨readFile_laid h1, i4, i5⟩, h3⟩

/-- What is known of an opened image. -/
structure Opened (segs : List (List Byte)) (st : State) (c : Files) : Prop where
  inv : Inv (volume segs) (chunks segs) st
  cache : CacheIs segs segs.length c
  checked : ∀ i, (h : i < segs.length) → FileChecked (i + 1) segs[i]

theorem segmentsLoop_ok {other : Nat → Nat → Section → R Unit} {files : Nat → Option (List Byte)} {segs : List (List Byte)} (hne : segs ≠ [])
    (hfiles : ∀ i, i < segs.length → files (i + 1) = segs[i]?)
    (hlast : ∀ i, (h : i < segs.length) → (IsLast segs[i] ↔ i + 1 = segs.length))
    {fuel k : Nat} {st st' : State} {c c' : Files} (hk : k ≤ segs.length)
    (hi : Inv (if k = 0 then ⟨0, 0, 0, 0⟩ else volume segs) (chunksFrom 1 (segs.take k)) st)
    (hl : st.last = decide (k = segs.length)) (hc : CacheIs segs k c) (hch : ∀ i, i < k → (h : i < segs.length) → FileChecked (i + 1) segs[i])
    (hok : segmentsLoop other files fuel (k + 1) st c = .ok (st', c')) : Opened segs st' c' := by
  induction fuel generalizing k st c with
  | zero => cases hok
  | succ fuel ih =>
    unfold segmentsLoop at hok
    have hpos : 0 < segs.length := List.length_pos_iff.2 hne
    by_cases hlt : k < segs.length
    swap
    · have hke : k = segs.length := by omega
      rw [hl, if_pos (by simpa using hke)] at hok
      simp only [R.ok.injEq, Prod.mk.injEq] at hok
      obtain ⟨rfl, rfl⟩ := hok
      rw [if_neg (by omega), hke, List.take_length] at hi
      rw [hke] at hc hch
      exact ⟨hi, hc, fun i h => hch i h h⟩
    · have hb : st.last = false := by rw [hl]; simp; omega
      have hf : segs[k]? = some segs[k] := List.getElem?_eq_getElem hlt
      rw [hb, if_neg (by simp), hfiles k hlt, hf] at hok
      simp only at hok
      obtain ⟨⟨s1, c1⟩, h1, hok⟩ := R.bind_eq_ok.1 hok
      simp only at hok
      obtain ⟨_, h2, hok⟩ := R.bind_eq_ok.1 hok
      obtain ⟨-, rfl⟩ := addU_eq_ok.1 h2
      obtain ⟨i1, i2, i3, i4, i5⟩ := readSegment_ok hi h1
      have htake : segs.take (k + 1) = segs.take k ++ [segs[k]] := by
        rw [List.take_add_one, hf]; rfl
      refine ih (k := k + 1) hlt ?_ ?_ (insert_cacheIs hc hf i5) ?_ hok
      · rw [if_neg (by omega), htake, chunksFrom_append]
        simp only [chunksFrom, List.append_nil]
        rw [List.length_take, Nat.min_eq_left (by omega), Nat.add_comm 1 k]
        have hv : volumeFrom segs[k] (if k = 0 then ⟨0, 0, 0, 0⟩ else volume segs) (sections segs[k]) = volume segs := by
          by_cases h0 : k = 0
          · subst h0
            rw [if_pos rfl]
            unfold volume
            rw [List.getD_eq_getElem?_getD, hf]
            rfl
          · rw [i3 (by omega), if_neg h0]
        rw [hv] at i1
        exact i1
      · rw [i2, hb, Bool.eq_iff_iff]
        rw [show lastFrom false (sections segs[k]) = true ↔ IsLast segs[k] from lastFrom_sections _ _ _, hlast k hlt, decide_eq_true_iff]
      · intro i hik hil
        by_cases e : i = k
        · subst e; exact i4
        · exact hch i (by omega) hil

theorem openImage_ok {other : Nat → Nat → Section → R Unit} {files : Nat → Option (List Byte)} {segs : List (List Byte)} (hne : segs ≠ [])
    (hfiles : ∀ i, i < segs.length → files (i + 1) = segs[i]?)
    (hlast : ∀ i, (h : i < segs.length) → (IsLast segs[i] ↔ i + 1 = segs.length)) {st : State} {c : Files}
    (hok : openImage other files = .ok (st, c)) : Opened segs st c := by
  have hpos : 0 < segs.length := List.length_pos_iff.2 hne
  refine segmentsLoop_ok hne hfiles hlast (k := 0) (Nat.zero_le _) ?_ ?_ (new_cacheIs segs) (by simp) hok
  · rw [if_pos rfl]
    exact ⟨by simp [Volume.chunkSize], by simp [Volume.mediaSize], by simp [chunksFrom], fun h => absurd (by simp [Volume.chunkSize]) h, fun _ => by simp [chunksFrom]⟩
  · simp; omega

/-! ## Reading -/

section
variable {dec : List Byte → Nat → R (List Byte)} {segs : List (List Byte)}

theorem contents_length : (contents dec segs).length = (volume segs).mediaSize := by
  unfold contents
  rw [List.length_map, List.length_range]

theorem get_chunk {st : State} {cache : Files} (ho : Opened segs st cache) {x : Nat} {c : Chunk}
    (hc : (chunks segs)[x / (volume segs).chunkSize]? = some c) :
    0 < (volume segs).chunkSize ∧ BlockTree.get st.tree x = .ok (some (toRange (volume segs).chunkSize (x / (volume segs).chunkSize) c)) := by
  have hne : chunks segs ≠ [] := fun e => by rw [e] at hc; cases hc
  have hz : ¬ ((volume segs).chunkSize = 0 ∨ (volume segs).mediaSize = 0) := fun h => hne (ho.inv.empty h)
  rw [not_or] at hz
  have ht := ho.inv.tree hz.1 hz.2
  have hp : 0 < (volume segs).chunkSize := Nat.pos_of_ne_zero hz.1
  obtain ⟨hlt, -⟩ := List.getElem?_eq_some_iff.1 hc
  refine ⟨hp, ?_⟩
  generalize (volume segs).chunkSize = size at *
  have hxs : x < st.tree.dataSize := by
    have h1 : x < (x / size + 1) * size := by
      have := Nat.div_add_mod x size
      have := Nat.mod_lt x hp
      rw [Nat.succ_mul, Nat.mul_comm]; omega
    have h2 : (x / size + 1) * size ≤ (chunks segs).length * size := Nat.mul_le_mul_right _ hlt
    have h3 := ht.fits
    omega
  obtain ⟨a, h1, h2, -⟩ := get_number ht.holds hp hxs
  rw [h1, (h2 (toRange size (x / size) c)).2 (mem_numbered.2 ⟨Nat.zero_le _, c, hc, rfl⟩)]

/-- What the caches may have. -/
structure CachesOk (dec : List Byte → Nat → R (List Byte)) (segs : List (List Byte)) (c : Caches) : Prop where
  files : ∀ j, 1 ≤ j → j ≤ segs.length → c.files.values j = some segs[j - 1]?
  capacity : c.blocks.numberOfEntries = 64
  usage : c.blocks.usage.length ≤ 64
  values : ∀ k v, c.blocks.values k = some v → ∃ e ∈ chunks segs, e.compressed = true ∧ e.offset = k ∧ v = decompressed dec segs e

theorem caches_ok {st : State} {files : Files} (ho : Opened segs st files) (hn : segs.length ≤ 16) : CachesOk dec segs (caches files) := by
  refine ⟨fun j h1 h2 => ?_, rfl, Nat.zero_le _, fun k v h => by cases h⟩
  show files.values j = _
  rw [ho.cache.values, if_pos (by omega)]

theorem insert_block {c : Caches} (h : CachesOk dec segs c) {e : Chunk} (he : e ∈ chunks segs) (hc : e.compressed = true) :
    ∃ b, c.blocks.insert e.offset (decompressed dec segs e) = .ok b ∧ CachesOk dec segs ⟨c.files, b⟩ ∧ b.get e.offset = some (decompressed dec segs e) := by
  unfold LruCache.Cache.insert
  have hcap := h.capacity
  have hus := h.usage
  by_cases hf : c.blocks.usage.length = c.blocks.numberOfEntries
  · rw [if_pos hf]
    cases hu : c.blocks.usage with
    | nil => rw [hu] at hf; simp at hf; omega
    | cons l rest =>
      simp only [R.ok_bind]
      refine ⟨_, rfl, ⟨h.files, hcap, ?_, fun k v hv => ?_⟩, by simp [LruCache.Cache.get]⟩
      · rw [hu] at hus; simpa using hus
      · simp only at hv
        split at hv
        · next hk => exact ⟨e, he, hc, hk.symm, (Option.some.inj hv).symm⟩
        · split at hv
          · cases hv
          · exact h.values k v hv
  · rw [if_neg hf, R.ok_bind]
    refine ⟨_, rfl, ⟨h.files, hcap, ?_, fun k v hv => ?_⟩, by simp [LruCache.Cache.get]⟩
    · simp only [List.length_append, List.length_singleton]; omega
    · simp only at hv
      split at hv
      · next hk => exact ⟨e, he, hc, hk.symm, (Option.some.inj hv).symm⟩
      · exact h.values k v hv

theorem segmentFile_eq {j : Nat} (h1 : 1 ≤ j) (h2 : j ≤ segs.length) : segs[j - 1]? = some (segmentFile segs j) := by
  unfold segmentFile
  rw [List.getD_eq_getElem?_getD, List.getElem?_eq_getElem (by omega)]
  rfl

theorem readExact_eq {c : Caches} (h : CachesOk dec segs c) {e : Chunk} (he : e ∈ chunks segs) (pos n : Nat) :
    readExact c.files e.segment pos n = readExactAt (segmentFile segs e.segment) pos n := by
  have := chunksFrom_segment he
  unfold readExact LruCache.Cache.get
  rw [h.files _ this.1 (by omega), segmentFile_eq this.1 (by omega)]

theorem chunkCached_ok {st : State} {cache : Files} (ho : Opened segs st cache) (hap : Apart segs) {c : Caches} (h : CachesOk dec segs c)
    {e : Chunk} (he : e ∈ chunks segs) (hc : e.compressed = true) (hs : e.size < 2 ^ 32)
    (hin : e.offset + e.size ≤ (segmentFile segs e.segment).length) {out : List Byte}
    (hout : dec (bytesAt (segmentFile segs e.segment) e.offset e.size) (volume segs).chunkSize = .ok out) (k : Nat) :
    ∃ c', chunkCached dec st c (toRange (volume segs).chunkSize k e) = .ok c' ∧ CachesOk dec segs c' ∧
      c'.blocks.get e.offset = some (decompressed dec segs e) := by
  have hd : decompressed dec segs e = out := by unfold decompressed; rw [hout]
  unfold chunkCached toRange
  simp only
  rw [Nat.mod_eq_of_lt hs]
  by_cases hcon : c.blocks.contains e.offset = true
  · rw [if_pos hcon]
    refine ⟨c, rfl, h, ?_⟩
    unfold LruCache.Cache.contains at hcon
    obtain ⟨v, hv⟩ := Option.isSome_iff_exists.1 hcon
    obtain ⟨e', he', hec, hed, hev⟩ := h.values _ _ hv
    show c.blocks.values e.offset = _
    rw [hv, hev]
    obtain ⟨s1, s2⟩ := hap e' he' e he hec hc hed
    unfold decompressed
    rw [s1, s2, hed]
  · rw [if_neg hcon, readExact_eq h he, readExactAt_ok hin, R.ok_bind, ho.inv.block]
    change ∃ c', (dec (bytesAt (segmentFile segs e.segment) e.offset e.size) (volume segs).chunkSize >>= _) = _ ∧ _
    rw [hout, R.ok_bind, ← hd]
    obtain ⟨b, b1, b2, b3⟩ := insert_block h he hc
    rw [b1, R.ok_bind]
    exact ⟨_, rfl, b2, b3⟩

theorem contents_get {x : Nat} (hx : x < (volume segs).mediaSize) : (contents dec segs)[x]? = some (byteAt dec segs x) := by
  unfold contents
  rw [List.getElem?_map, List.getElem?_range hx]
  rfl

theorem piece_ok {st : State} {cache : Files} (ho : Opened segs st cache) (hU : ∀ file ∈ segs, file.length < 2 ^ 63)
    (hr : Readable dec segs) (hap : Apart segs) {c : Caches} (h : CachesOk dec segs c) {pos n : Nat} (hn : 0 < n)
    (hpos : pos + n ≤ (contents dec segs).length) :
    ∃ out c', piece dec st c pos n = .ok (out, c') ∧ CachesOk dec segs c' ∧ out ≠ [] ∧ out <+: ((contents dec segs).drop pos).take n := by
  have hlen := contents_length (dec := dec) (segs := segs)
  rw [hlen] at hpos
  obtain ⟨e, he, hu, hz⟩ := hr pos (by omega)
  obtain ⟨hp, hget⟩ := get_chunk ho he
  have hmem : e ∈ chunks segs := List.mem_of_getElem? he
  have hseg := chunksFrom_segment hmem
  have hfs : c.files.contains e.segment = true := by
    unfold LruCache.Cache.contains
    rw [h.files _ hseg.1 (by omega)]; rfl
  unfold piece
  rw [hget, R.ok_bind]
  simp only
  have hblock := ho.inv.block
  generalize hsize : (volume segs).chunkSize = size at *
  have hdm := Nat.div_add_mod pos size
  rw [Nat.mul_comm] at hdm
  have hml := Nat.mod_lt pos hp
  have hmo : (toRange size (pos / size) e).mediaOffset = pos / size * size := rfl
  have hsg : (toRange size (pos / size) e).segment = e.segment := rfl
  unfold fileCached
  rw [hsg, if_pos hfs, R.ok_bind, hmo, R.subU_ok (by omega), R.ok_bind, hblock, R.subU_ok (by omega), R.ok_bind]
  have hrel : pos - pos / size * size = pos % size := by omega
  rw [hrel]
  generalize hcnt : min n (size - pos % size) = count
  have hcount : pos % size + count ≤ size := by omega
  -- the bytes of the media
  have hbyte : ∀ i, i < count → (contents dec segs)[pos + i]? = some (if e.compressed then (decompressed dec segs e).getD (pos % size + i) 0#8
      else (segmentFile segs e.segment).getD (e.offset + (pos % size + i)) 0#8) := by
    intro i hi
    rw [contents_get (by omega)]
    obtain ⟨q1, q2⟩ := SparseImage.split_pos (pos := pos) (n := n) hp (by rw [hcnt]; exact hi)
    unfold byteAt
    rw [hsize, q1, q2, he]
  unfold rangeBytes
  by_cases hcomp : e.compressed = true
  · obtain ⟨z1, z2, out, z3, z4⟩ := hz hcomp
    have hcr : (toRange size (pos / size) e).compressed = true := hcomp
    rw [if_pos hcr]
    obtain ⟨c', e1, e2, e3⟩ := chunkCached_ok ho hap (c := ⟨c.files, c.blocks⟩) h hmem hcomp z1 z2 (by rw [hsize]; exact z3) (pos / size)
    rw [hsize] at e1
    have hdo : (toRange size (pos / size) e).dataOffset = e.offset := rfl
    have hd : decompressed dec segs e = out := by unfold decompressed; rw [hsize, z3]
    rw [e1, R.ok_bind, hdo, e3]
    simp only
    rw [hd, R.slice_ok (by omega) (by omega), R.ok_bind, Nat.add_sub_cancel_left]
    have hl : ((out.drop (pos % size)).take count).length = count := by rw [List.length_take, List.length_drop]; omega
    refine ⟨_, _, rfl, e2, fun e => by rw [e] at hl; simp at hl; omega, Blocks.prefix_of_bytes (by omega) (by omega) fun i hi => ?_⟩
    rw [hl] at hi
    rw [hbyte i hi, if_pos hcomp, hd, List.getElem?_take_of_lt hi, List.getElem?_drop, List.getD_eq_getElem?_getD,
      List.getElem?_eq_getElem (by omega)]
    rfl
  · have hcf : e.compressed = false := by simpa using hcomp
    have hcr : ¬ (toRange size (pos / size) e).compressed = true := hcomp
    rw [if_neg hcr]
    have hdo : (toRange size (pos / size) e).dataOffset = e.offset := rfl
    have hfile : segmentFile segs e.segment ∈ segs := List.mem_of_getElem? (segmentFile_eq hseg.1 (by omega))
    have hU' := hU _ hfile
    -- the last byte is in the file
    have hend : e.offset + (pos % size + count) ≤ (segmentFile segs e.segment).length := by
      obtain ⟨q1, q2⟩ := SparseImage.split_pos (pos := pos) (n := n) (i := count - 1) hp (by omega)
      obtain ⟨e', he', hu', -⟩ := hr (pos + (count - 1)) (by omega)
      rw [hsize, q1, he, Option.some.injEq] at he'
      subst he'
      have := hu' hcf
      rw [hsize, q2] at this
      omega
    rw [hdo, R.addU_ok (by omega), R.ok_bind, hsg]
    have hre := readExact_eq (c := ⟨c.files, c.blocks⟩) h hmem (e.offset + pos % size) count
    rw [hre, readExactAt_ok (by omega), R.ok_bind]
    have hl : (((segmentFile segs e.segment).drop (e.offset + pos % size)).take count).length = count := by
      rw [List.length_take, List.length_drop]; omega
    refine ⟨_, _, rfl, h, fun e => by rw [e] at hl; simp at hl; omega, Blocks.prefix_of_bytes (by omega) (by omega) fun i hi => ?_⟩
    rw [hl] at hi
    rw [hbyte i hi, if_neg hcomp, List.getElem?_take_of_lt hi, List.getElem?_drop, List.getD_eq_getElem?_getD,
      List.getElem?_eq_getElem (by omega), List.getElem?_eq_getElem (by omega)]
    simp only [Option.getD_some, Nat.add_assoc]

theorem stream_trace {st : State} {cache : Files} (ho : Opened segs st cache) (hn : segs.length ≤ 16) (hU : ∀ file ∈ segs, file.length < 2 ^ 63)
    (hr : Readable dec segs) (hap : Apart segs) (ops : List StreamOp) (hf : (volume segs).mediaSize + seekBudget ops < 2 ^ 63) :
    ∃ tr, Stream.run (stream dec st) ⟨caches cache, 0⟩ ops = .ok tr ∧ tr.map Prod.fst = ops ∧
      Trace true (contents dec segs) (volume segs).mediaSize 0 tr := by
  have hs : stream dec st = Blocks.reader (piece dec st) (contents dec segs).length := by
    unfold stream; rw [contents_length, ho.inv.media]
  rw [hs, ← contents_length (dec := dec)]
  refine Blocks.blocks_correct (Inv := CachesOk dec segs) ?_ ?_ ops (by rw [contents_length]; omega) _ (caches_ok ho hn)
  · intro c pos n out c' hc hn hpos h
    obtain ⟨out', c'', e, h1, h2, h3⟩ := piece_ok ho hU hr hap hc hn hpos
    rw [e, R.ok.injEq, Prod.mk.injEq] at h
    obtain ⟨rfl, rfl⟩ := h
    exact ⟨h1, h2, h3⟩
  · intro c pos n hc hn hpos
    obtain ⟨out', c'', e, -⟩ := piece_ok ho hU hr hap hc hn hpos
    exact ⟨_, _, e⟩

/-! ## More than 16 segments -/

theorem piece_lost {st : State} {cache : Files} (ho : Opened segs st cache) (hU : ∀ file ∈ segs, file.length < 2 ^ 63)
    (hr : Readable dec segs) {pos n : Nat} (hpos : pos < (volume segs).mediaSize) {e : Chunk}
    (he : (chunks segs)[pos / (volume segs).chunkSize]? = some e) (hlost : e.segment + 16 ≤ segs.length) :
    piece dec st (caches cache) pos n = .err := by
  obtain ⟨hp, hget⟩ := get_chunk ho he
  have hmem : e ∈ chunks segs := List.mem_of_getElem? he
  have hseg := chunksFrom_segment hmem
  have hv : cache.values e.segment = none := by
    rw [ho.cache.values, if_neg (by omega)]
  have hfs : ¬ cache.contains e.segment = true := by
    unfold LruCache.Cache.contains
    rw [hv]; simp
  obtain ⟨files, hins, hnone⟩ : ∃ files, cache.insert e.segment none = .ok files ∧ files.get e.segment = some none := by
    unfold LruCache.Cache.insert
    by_cases hf : cache.usage.length = cache.numberOfEntries
    · rw [if_pos hf]
      cases hu : cache.usage with
      | nil => rw [hu, ho.cache.capacity] at hf; simp at hf
      | cons l rest =>
        simp only [R.ok_bind]
        exact ⟨_, rfl, by simp [LruCache.Cache.get]⟩
    · rw [if_neg hf]
      simp only [R.ok_bind]
      exact ⟨_, rfl, by simp [LruCache.Cache.get]⟩
  have hre : ∀ p m, readExact files e.segment p m = .err := by
    intro p m
    unfold readExact
    rw [hnone]
  unfold piece
  rw [hget, R.ok_bind]
  simp only
  have hblock := ho.inv.block
  have hoff : e.compressed = false → e.offset + pos % (volume segs).chunkSize < 2 ^ 64 := by
    intro hc
    obtain ⟨e', he', hu, -⟩ := hr pos hpos
    rw [he, Option.some.injEq] at he'
    subst he'
    have := hu hc
    have hfile : segmentFile segs e.segment ∈ segs := List.mem_of_getElem? (segmentFile_eq hseg.1 (by omega))
    have := hU _ hfile
    omega
  generalize hsize : (volume segs).chunkSize = size at *
  have hdm := Nat.div_add_mod pos size
  rw [Nat.mul_comm] at hdm
  have hml := Nat.mod_lt pos hp
  have hmo : (toRange size (pos / size) e).mediaOffset = pos / size * size := rfl
  have hsg : (toRange size (pos / size) e).segment = e.segment := rfl
  have hfc : (caches cache).files = cache := rfl
  unfold fileCached
  rw [hsg, hfc, if_neg hfs, hins, R.ok_bind, hmo, R.subU_ok (by omega), R.ok_bind, hblock, R.subU_ok (by omega), R.ok_bind]
  have hrel : pos - pos / size * size = pos % size := by omega
  rw [hrel]
  have hdo : (toRange size (pos / size) e).dataOffset = e.offset := rfl
  have hcr : (toRange size (pos / size) e).compressed = e.compressed := rfl
  unfold rangeBytes
  rw [hcr]
  by_cases hcomp : e.compressed = true
  · rw [if_pos hcomp]
    unfold chunkCached
    have : ¬ (caches cache).blocks.contains (toRange size (pos / size) e).dataOffset = true := by
      simp [caches, LruCache.Cache.contains, LruCache.new]
    rw [if_neg this, hsg, hre]
    rfl
  · rw [if_neg hcomp, hdo, R.addU_ok (hoff (by simpa using hcomp)), R.ok_bind, hsg, hre]
    rfl

end

end Keramics.EwfImage
