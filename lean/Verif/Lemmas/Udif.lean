import Verif.Lemmas.Tiling
import Verif.Lemmas.Blocks
import Verif.Lemmas.Vhd
import Verif.Model.Udif
import Verif.Spec.Udif

/-! # Lemmas: UDIF images -/

namespace Keramics.Udif
open Keramics.Spec Keramics.Spec.Udif
open Keramics.Qcow (u64be_field)
open Keramics.Vhd (fieldBe_at)

/-! ## The footer and the tables -/

theorem readFooter_good (file : List Byte) : R.Good (FooterOk file) (readFooter file)
    (fun f => f = ⟨Spec.Udif.forkOffset file, forkSize file, plistOffset file, plistSize file⟩ ∧ FooterOk file) := by
  unfold readFooter
  refine R.Good.bind ((readExactAt_good (U := file) (pos := file.length - 512) (n := 512)).mono (fun h => by have := h.1; omega) (fun _ h => h)) ?_
  intro data hdata
  obtain ⟨hdata, -, hlen⟩ := hdata
  rw [hdata]
  have hlen' : 512 ≤ file.length := by have := hlen (by omega); omega
  have hl : (bytesAt file (file.length - 512) 512).length = 512 := bytesAt_length (by omega)
  rw [slice_bytesAt' (n := 4) rfl (by omega), R.ok_bind, bytesAt_bytesAt (by omega), Nat.add_zero]
  refine R.Good.bind (R.Good.require fun h => h.2.1) fun _ hsig => ?_
  rw [u32be_field (by omega), R.ok_bind, fieldBe_at (by omega)]
  refine R.Good.bind (R.Good.require fun h => h.2.2) fun _ hv => ?_
  rw [u64be_field (by omega), R.ok_bind, u64be_field (by omega), R.ok_bind, u64be_field (by omega), R.ok_bind, u64be_field (by omega), R.ok_bind,
    fieldBe_at (by omega), fieldBe_at (by omega), fieldBe_at (by omega), fieldBe_at (by omega)]
  exact R.Good.ok ⟨rfl, hlen', hsig, hv⟩

/-- The entry of the specification. -/
def conv (e : Entry) : Spec.Udif.Entry := ⟨e.entryType, e.startSector, e.numberOfSectors, e.dataOffset, e.dataSize⟩

theorem readEntry_at {data : List Byte} {a : Nat} (h : a + 40 ≤ data.length) :
    ∃ e, readEntry (bytesAt data a 40) = .ok e ∧ conv e = entryAt data a := by
  have hl : (bytesAt data a 40).length = 40 := bytesAt_length h
  unfold readEntry
  rw [R.require_true hl, R.ok_bind, u32be_field (by omega), R.ok_bind, u64be_field (by omega), R.ok_bind, u64be_field (by omega), R.ok_bind,
    u64be_field (by omega), R.ok_bind, u64be_field (by omega), R.ok_bind,
    fieldBe_at (by omega), fieldBe_at (by omega), fieldBe_at (by omega), fieldBe_at (by omega), fieldBe_at (by omega)]
  exact ⟨_, rfl, rfl⟩

theorem readEntries_good {data : List Byte} (n a : Nat) : R.Good (a + 40 * n ≤ data.length) (readEntries data n a)
    (fun es => es.map conv = (List.range n).map (fun i => entryAt data (a + 40 * i)) ∧ (0 < n → a + 40 * n ≤ data.length)) := by
  induction n generalizing a with
  | zero => exact R.Good.ok ⟨rfl, by omega⟩
  | succ n ih =>
    unfold readEntries
    refine R.Good.bind (R.Good.require fun h => by omega) fun _ h => ?_
    rw [slice_bytesAt h, R.ok_bind]
    obtain ⟨e, he, hc⟩ := readEntry_at h
    rw [he, R.ok_bind]
    refine R.Good.bind ((ih (a + 40)).mono (by omega) (fun _ h => h)) ?_
    rintro es ⟨h1, h2⟩
    refine R.Good.ok ⟨?_, fun _ => ?_⟩
    · rw [List.map_cons, h1, hc, List.range_succ_eq_map, List.map_cons, List.map_map]
      congr 1
      apply List.map_congr_left
      intro i _
      simp only [Function.comp]
      congr 1; omega
    · rcases Nat.eq_zero_or_pos n with h0 | h0
      · subst h0; omega
      · have := h2 h0; omega

theorem readTable_good (data : List Byte) : R.Good (TableOk data) (readTable data)
    (fun t => t.1 = (tableOf data).start ∧ t.2.map conv = (tableOf data).entries ∧ TableOk data) := by
  unfold readTable
  refine R.Good.bind (R.Good.require fun h => by have := h.1; omega) fun _ hlen => ?_
  rw [slice_bytesAt' (n := 204) rfl (by omega), R.ok_bind]
  have hl : (bytesAt data 0 204).length = 204 := bytesAt_length (by omega)
  rw [slice_bytesAt' (n := 4) rfl (by omega), R.ok_bind, bytesAt_bytesAt (by omega), Nat.add_zero]
  refine R.Good.bind (R.Good.require fun h => h.2.1) fun _ hsig => ?_
  rw [u32be_field (by omega), R.ok_bind, fieldBe_at (by omega), Nat.zero_add]
  refine R.Good.bind (R.Good.require fun h => h.2.2) fun _ hv => ?_
  rw [u64be_field (by omega), R.ok_bind, u32be_field (by omega), R.ok_bind, fieldBe_at (by omega), fieldBe_at (by omega), Nat.zero_add, Nat.zero_add]
  refine R.Good.bind ((readEntries_good _ 204).mono (fun h => h.1) (fun _ h => h)) ?_
  rintro es ⟨h1, h2⟩
  refine R.Good.ok ⟨rfl, h1, ?_, hsig, hv⟩
  rcases Nat.eq_zero_or_pos (fieldBe data 200 4) with h0 | h0
  · rw [h0]; omega
  · exact h2 h0

/-! ## The ranges -/

def kindOf (e : Spec.Udif.Entry) : Kind := if e.kind = 1 then .inFile else if e.compressed then .compressed else .sparse

/-- The range of an entry that starts at a sector. -/
def toRange (p : Nat × Spec.Udif.Entry) : Range :=
  ⟨p.1 * 512, if p.2.kind = 1 ∨ p.2.compressed then p.2.dataOffset else 0, p.2.sectors * 512,
    if p.2.compressed then p.2.dataSize % 2 ^ 32 else 0, kindOf p.2⟩

/-- The type of the compressed entries after some entries. -/
def methodAfter (m : Nat) (e : Spec.Udif.Entry) : Nat := if e.compressed then e.kind else m

def MethodOk : Nat → List Spec.Udif.Entry → Prop
  | _, [] => True
  | m, e :: es => (e.compressed → m = 0 ∨ e.kind = m) ∧ MethodOk (methodAfter m e) es

theorem mul512 {a : Nat} (h : a < 2 ^ 55) : a * 512 < 2 ^ 64 := Nat.mul_lt_mul_of_pos_right h (show 0 < 512 by decide)

theorem rangeOf_good (s : Loop) (e : Entry) (h : s.mediaOffset = s.mediaSector * 512) :
    R.Good (((conv e).kind ≤ 2 ∨ (conv e).compressed ∧ e.numberOfSectors ≤ 2048) ∧ ((conv e).compressed → s.method = 0 ∨ e.entryType = s.method))
      (rangeOf s e (e.numberOfSectors * 512))
      (fun r => r = (toRange (s.mediaSector, conv e), methodAfter s.method (conv e)) ∧
        ((conv e).kind ≤ 2 ∨ (conv e).compressed ∧ e.numberOfSectors ≤ 2048) ∧ ((conv e).compressed → s.method = 0 ∨ e.entryType = s.method)) := by
  have hk : (conv e).kind = e.entryType := rfl
  have hc : (conv e).compressed ↔ 0x80000004 ≤ e.entryType ∧ e.entryType ≤ 0x80000007 := Iff.rfl
  unfold rangeOf
  by_cases h0 : e.entryType = 0 ∨ e.entryType = 2
  · rw [if_pos h0]
    have hnc : ¬ (conv e).compressed := by rw [hc]; omega
    refine R.Good.ok ⟨?_, Or.inl (by omega), fun h => absurd h hnc⟩
    simp only [toRange, methodAfter, kindOf, if_neg hnc]
    simp only [hk, show ¬ e.entryType = 1 by omega, h, hnc, or_false, if_false]
    rfl
  · rw [if_neg h0]
    by_cases h1 : e.entryType = 1
    · rw [if_pos h1]
      have hnc : ¬ (conv e).compressed := by rw [hc]; omega
      refine R.Good.ok ⟨?_, Or.inl (by omega), fun h => absurd h hnc⟩
      simp only [toRange, methodAfter, kindOf, if_neg hnc]
      simp only [hk, h1, h, true_or, if_true]
      rfl
    · rw [if_neg h1]
      by_cases hcm : (conv e).compressed
      · rw [if_pos (by rw [hc] at hcm; omega)]
        refine R.Good.bind (R.Good.require fun h => ?_) fun _ g1 => ?_
        · rcases h.1 with h | h
          · rw [hk] at h; rw [hc] at hcm; omega
          · exact h.2
        refine R.Good.bind (R.Good.require fun h => h.2 hcm) fun _ g2 => ?_
        refine R.Good.ok ⟨?_, Or.inr ⟨hcm, g1⟩, fun _ => g2⟩
        simp only [toRange, methodAfter, kindOf, if_pos hcm]
        simp only [hk, h1, h, hcm, or_true, if_true, if_false]
        rfl
      · rw [if_neg (by rw [hc] at hcm; omega)]
        exact R.Good.err fun h => by
          rcases h.1 with h | h
          · rw [hk] at h; omega
          · exact hcm h.1

theorem addEntry_good {fork size tableStart : Nat} {s : Loop} {e : Entry} (h : s.mediaOffset = s.mediaSector * 512)
    (hb : s.mediaSector + e.numberOfSectors < 2 ^ 55) (hts : tableStart ≤ s.mediaSector) :
    R.Good (tableStart + e.startSector = s.mediaSector ∧ EntryOk fork size (conv e) ∧ ((conv e).compressed → s.method = 0 ∨ e.entryType = s.method))
      (addEntry fork (fork + size) tableStart s e)
      (fun s' => s' = ⟨s.ranges ++ [toRange (s.mediaSector, conv e)], s.mediaSector + e.numberOfSectors, (s.mediaSector + e.numberOfSectors) * 512,
          methodAfter s.method (conv e)⟩ ∧
        tableStart + e.startSector = s.mediaSector ∧ EntryOk fork size (conv e) ∧ ((conv e).compressed → s.method = 0 ∨ e.entryType = s.method)) := by
  unfold addEntry
  have hmax : maximum = 2 ^ 55 - 1 := rfl
  rw [R.subU_ok (by omega), R.ok_bind]
  refine R.Good.bind (R.Good.require fun h => by omega) fun _ g0 => ?_
  rw [R.addU_ok (by omega), R.ok_bind]
  refine R.Good.bind (R.Good.require fun h => by omega) fun _ g1 => ?_
  refine R.Good.bind (R.Good.require fun h => ⟨by have := h.2.1.2.1; simp only [conv] at this; omega, by omega⟩) fun _ g2 => ?_
  refine R.Good.bind (R.Good.require fun h => ⟨h.2.1.2.2.1, h.2.1.2.2.2.1⟩) fun _ g3 => ?_
  rw [R.subU_ok (by omega), R.ok_bind]
  refine R.Good.bind (R.Good.require fun h => by have := h.2.1.2.2.2.2; simp only [conv] at this; omega) fun _ g4 => ?_
  rw [R.mulU_ok (mul512 (show e.numberOfSectors < 2 ^ 55 by omega)), R.ok_bind]
  refine R.Good.bind ((rangeOf_good s e h).mono (fun h => ⟨h.2.1.1, h.2.2⟩) (fun _ h => h)) ?_
  rintro _ ⟨rfl, g5, g6⟩
  simp only
  have hsum : s.mediaOffset + e.numberOfSectors * 512 = (s.mediaSector + e.numberOfSectors) * 512 := by rw [h, Nat.add_mul]
  rw [R.addU_ok (by rw [hsum]; exact mul512 hb), R.ok_bind, R.addU_ok (by omega), R.ok_bind]
  refine R.Good.ok ⟨?_, g1, ⟨g5, ?_, g3.1, g3.2, ?_⟩, g6⟩
  · rw [hsum]
  · show 0 < e.numberOfSectors; omega
  · show e.dataOffset + e.dataSize ≤ fork + size; omega

/-- The entries that are used. -/
def usedE (es : List Spec.Udif.Entry) : List Spec.Udif.Entry :=
  (es.takeWhile fun e => e.kind ≠ 0xffffffff).filter fun e => e.kind ≠ 0x7ffffffe

def lastMethod (m : Nat) (es : List Spec.Udif.Entry) : Nat := es.foldl methodAfter m

theorem entriesLoop_good {fork size tableStart : Nat} (es : List Entry) {s : Loop} (h : s.mediaOffset = s.mediaSector * 512)
    (hb : s.mediaSector + sectorsOf (usedE (es.map conv)) < 2 ^ 55) (hts : tableStart ≤ s.mediaSector) :
    R.Good (EntriesFollow (s.mediaSector - tableStart) (usedE (es.map conv)) ∧ (∀ e ∈ usedE (es.map conv), EntryOk fork size e) ∧ MethodOk s.method (usedE (es.map conv)))
      (entriesLoop fork (fork + size) tableStart es s)
      (fun s' => s' = ⟨s.ranges ++ (placed s.mediaSector (usedE (es.map conv))).map toRange, s.mediaSector + sectorsOf (usedE (es.map conv)),
          (s.mediaSector + sectorsOf (usedE (es.map conv))) * 512, lastMethod s.method (usedE (es.map conv))⟩ ∧
        EntriesFollow (s.mediaSector - tableStart) (usedE (es.map conv)) ∧ (∀ e ∈ usedE (es.map conv), EntryOk fork size e) ∧
        MethodOk s.method (usedE (es.map conv))) := by
  induction es generalizing s with
  | nil =>
    refine R.Good.ok ⟨?_, trivial, (by intro e he; cases he), trivial⟩
    show s = ⟨s.ranges ++ [], s.mediaSector + 0, (s.mediaSector + 0) * 512, s.method⟩
    rw [List.append_nil, Nat.add_zero, ← h]
  | cons e es ih =>
    unfold entriesLoop
    have hk : (conv e).kind = e.entryType := rfl
    by_cases hT : e.entryType = 0xffffffff
    · rw [if_pos hT]
      have hu : usedE ((e :: es).map conv) = [] := by
        unfold usedE
        rw [List.map_cons, List.takeWhile_cons_of_neg (by simp [hk, hT])]; rfl
      rw [hu]
      refine R.Good.ok ⟨?_, trivial, (by intro e he; cases he), trivial⟩
      show s = ⟨s.ranges ++ [], s.mediaSector + 0, (s.mediaSector + 0) * 512, s.method⟩
      rw [List.append_nil, Nat.add_zero, ← h]
    · rw [if_neg hT]
      by_cases hC : e.entryType = 0x7ffffffe
      · rw [if_pos hC]
        have hu : usedE ((e :: es).map conv) = usedE (es.map conv) := by
          unfold usedE
          rw [List.map_cons, List.takeWhile_cons_of_pos (by simp [hk, hT]), List.filter_cons_of_neg (by simp [hk, hC])]
        rw [hu] at hb ⊢
        exact ih h hb hts
      · rw [if_neg hC]
        have hu : usedE ((e :: es).map conv) = conv e :: usedE (es.map conv) := by
          unfold usedE
          rw [List.map_cons, List.takeWhile_cons_of_pos (by simp [hk, hT]), List.filter_cons_of_pos (by simp [hk, hC])]
        rw [hu] at hb ⊢
        have hsum : sectorsOf (conv e :: usedE (es.map conv)) = e.numberOfSectors + sectorsOf (usedE (es.map conv)) := by
          unfold sectorsOf; rw [List.map_cons, List.sum_cons]; rfl
        rw [hsum] at hb ⊢
        generalize hU : usedE (es.map conv) = U at *
        have hg := (addEntry_good (fork := fork) (size := size) (tableStart := tableStart) (s := s) (e := e) h (by omega) hts)
        refine R.Good.bind (hg.mono (c' := EntriesFollow (s.mediaSector - tableStart) (conv e :: U) ∧ (∀ x ∈ conv e :: U, EntryOk fork size x) ∧ MethodOk s.method (conv e :: U))
          (fun hc => ⟨by have := hc.1.1; simp only [conv] at this; omega, hc.2.1 _ (by simp), hc.2.2.1⟩) (fun _ h => h)) ?_
        rintro s' ⟨rfl, g1, g2, g3⟩
        have hstart : (conv e).start = s.mediaSector - tableStart := by simp only [conv]; omega
        have hih := @ih ⟨s.ranges ++ [toRange (s.mediaSector, conv e)], s.mediaSector + e.numberOfSectors, (s.mediaSector + e.numberOfSectors) * 512,
          methodAfter s.method (conv e)⟩ (by simp only) (by simp only; omega) (by simp only; omega)
        simp only at hih
        refine hih.mono (fun hc => ⟨?_, fun x hx => hc.2.1 x (by simp [hx]), hc.2.2.2⟩) ?_
        · have := hc.1.2
          rw [show s.mediaSector + e.numberOfSectors - tableStart = s.mediaSector - tableStart + (conv e).sectors by simp only [conv]; omega]
          exact this
        · rintro s' ⟨rfl, k1, k2, k3⟩
          refine ⟨?_, ⟨hstart, ?_⟩, ?_, g3, k3⟩
          · rw [placed, List.map_cons, List.append_assoc, Nat.add_assoc]; rfl
          · rw [show s.mediaSector - tableStart + (conv e).sectors = s.mediaSector + e.numberOfSectors - tableStart by simp only [conv]; omega]
            exact k1
          · intro x hx
            rcases List.mem_cons.1 hx with rfl | hx
            · exact g2
            · exact k2 x hx

theorem sectorsOf_append (a b : List Spec.Udif.Entry) : sectorsOf (a ++ b) = sectorsOf a + sectorsOf b := by
  unfold sectorsOf; rw [List.map_append, List.sum_append]

theorem placed_append (n : Nat) (a b : List Spec.Udif.Entry) : placed n (a ++ b) = placed n a ++ placed (n + sectorsOf a) b := by
  induction a generalizing n with
  | nil => rfl
  | cons e a ih =>
    rw [List.cons_append, placed, placed, ih, List.cons_append]
    congr 3
    unfold sectorsOf; rw [List.map_cons, List.sum_cons]; omega

theorem methodOk_append (m : Nat) (a b : List Spec.Udif.Entry) : MethodOk m (a ++ b) ↔ MethodOk m a ∧ MethodOk (lastMethod m a) b := by
  induction a generalizing m with
  | nil => simp [MethodOk, lastMethod]
  | cons e a ih => simp only [List.cons_append, MethodOk, ih, lastMethod, List.foldl_cons, and_assoc]

theorem tablesLoop_good {fork size : Nat} (ts : List (List Byte)) {s : Loop} (h : s.mediaOffset = s.mediaSector * 512)
    (hb : s.mediaSector + sectorsOf (usedOf (ts.map tableOf)) < 2 ^ 55) :
    R.Good ((∀ d ∈ ts, TableOk d) ∧ TablesFollow s.mediaSector (ts.map tableOf) ∧ (∀ e ∈ usedOf (ts.map tableOf), EntryOk fork size e) ∧
        MethodOk s.method (usedOf (ts.map tableOf)))
      (tablesLoop fork (fork + size) ts s)
      (fun s' => s' = ⟨s.ranges ++ (placed s.mediaSector (usedOf (ts.map tableOf))).map toRange, s.mediaSector + sectorsOf (usedOf (ts.map tableOf)),
          (s.mediaSector + sectorsOf (usedOf (ts.map tableOf))) * 512, lastMethod s.method (usedOf (ts.map tableOf))⟩ ∧
        (∀ d ∈ ts, TableOk d) ∧ TablesFollow s.mediaSector (ts.map tableOf) ∧ (∀ e ∈ usedOf (ts.map tableOf), EntryOk fork size e) ∧
        MethodOk s.method (usedOf (ts.map tableOf))) := by
  induction ts generalizing s with
  | nil =>
    refine R.Good.ok ⟨?_, (by intro e he; cases he), trivial, (by intro e he; cases he), trivial⟩
    show s = ⟨s.ranges ++ [], s.mediaSector + 0, (s.mediaSector + 0) * 512, s.method⟩
    rw [List.append_nil, Nat.add_zero, ← h]
  | cons d ts ih =>
    have hu : usedOf ((d :: ts).map tableOf) = (tableOf d).used ++ usedOf (ts.map tableOf) := by
      unfold usedOf; rw [List.map_cons, List.flatMap_cons]
    rw [hu] at hb ⊢
    rw [sectorsOf_append] at hb ⊢
    generalize hU : usedOf (ts.map tableOf) = U at *
    unfold tablesLoop
    refine R.Good.bind ((readTable_good d).mono (fun hc => hc.1 d (by simp)) (fun _ h => h)) ?_
    rintro ⟨ts0, es⟩ ⟨g1, g2, g3⟩
    simp only at g1 g2 ⊢
    refine R.Good.bind (R.Good.require fun hc => by rw [g1]; exact hc.2.1.1) fun _ g4 => ?_
    have hused : usedE (es.map conv) = (tableOf d).used := by rw [g2]; rfl
    have hg := entriesLoop_good (fork := fork) (size := size) (tableStart := ts0) es h (by rw [hused]; omega) (by omega)
    rw [hused, g4, Nat.sub_self] at hg
    rw [g4]
    refine R.Good.bind (hg.mono (fun hc => ⟨hc.2.1.2.1, fun e he => hc.2.2.1 e (by simp [he]), ((methodOk_append _ _ _).1 hc.2.2.2).1⟩) (fun _ h => h)) ?_
    rintro _ ⟨rfl, k1, k2, k3⟩
    have hih := @ih ⟨s.ranges ++ (placed s.mediaSector (tableOf d).used).map toRange, s.mediaSector + sectorsOf (tableOf d).used,
      (s.mediaSector + sectorsOf (tableOf d).used) * 512, lastMethod s.method (tableOf d).used⟩ (by simp only) (by simp only; omega)
    simp only at hih
    refine hih.mono (fun hc => ⟨fun x hx => hc.1 x (by simp [hx]), hc.2.1.2.2, fun e he => hc.2.2.1 e (by simp [he]), ((methodOk_append _ _ _).1 hc.2.2.2).2⟩) ?_
    rintro s' ⟨rfl, q1, q2, q3, q4⟩
    refine ⟨?_, ?_, ⟨by rw [← g1, g4], k1, q2⟩, ?_, (methodOk_append _ _ _).2 ⟨k3, q4⟩⟩
    · unfold lastMethod
      rw [placed_append, List.map_append, List.append_assoc, List.foldl_append, Nat.add_assoc]
    · intro x hx
      rcases List.mem_cons.1 hx with rfl | hx
      · exact g3
      · exact q1 x hx
    · intro x hx
      rcases List.mem_append.1 hx with hx | hx
      · exact k2 x hx
      · exact q3 x hx

/-- The method of compression is the same everywhere exactly if it never changes. -/
theorem methodOk_iff {es : List Spec.Udif.Entry} : MethodOk 0 es ↔ ∀ e ∈ es, ∀ e' ∈ es, e.compressed → e'.compressed → e.kind = e'.kind := by
  have key : ∀ (es : List Spec.Udif.Entry) (m : Nat), MethodOk m es ↔
      (∀ e ∈ es, ∀ e' ∈ es, e.compressed → e'.compressed → e.kind = e'.kind) ∧ (m ≠ 0 → ∀ e ∈ es, e.compressed → e.kind = m) := by
    intro es
    induction es with
    | nil => intro m; simp [MethodOk]
    | cons a es ih =>
      intro m
      simp only [MethodOk, ih]
      by_cases ha : a.compressed
      · have hak : a.kind ≠ 0 := by have := ha.1; omega
        have hm : methodAfter m a = a.kind := if_pos ha
        rw [hm]
        constructor
        · rintro ⟨h1, h2, h3⟩
          have h3 := h3 hak
          refine ⟨fun e he e' he' c c' => ?_, fun hm0 e he c => ?_⟩
          · have k1 : e.kind = a.kind := by rcases List.mem_cons.1 he with rfl | he; (· rfl); exact h3 e he c
            have k2 : e'.kind = a.kind := by rcases List.mem_cons.1 he' with rfl | he'; (· rfl); exact h3 e' he' c'
            rw [k1, k2]
          · have k1 : e.kind = a.kind := by rcases List.mem_cons.1 he with rfl | he; (· rfl); exact h3 e he c
            rcases h1 ha with h | h
            · exact absurd h hm0
            · rw [k1, h]
        · rintro ⟨h1, h2⟩
          refine ⟨fun _ => ?_, fun e he e' he' => h1 e (by simp [he]) e' (by simp [he']), fun _ e he c => h1 e (by simp [he]) a (by simp) c ha⟩
          by_cases hm0 : m = 0
          · exact Or.inl hm0
          · exact Or.inr (h2 hm0 a (by simp) ha)
      · have hm : methodAfter m a = m := if_neg ha
        rw [hm]
        constructor
        · rintro ⟨-, h2, h3⟩
          refine ⟨fun e he e' he' c c' => ?_, fun hm0 e he c => ?_⟩
          · rcases List.mem_cons.1 he with rfl | he
            · exact absurd c ha
            · rcases List.mem_cons.1 he' with rfl | he'
              · exact absurd c' ha
              · exact h2 e he e' he' c c'
          · rcases List.mem_cons.1 he with rfl | he
            · exact absurd c ha
            · exact h3 hm0 e he c
        · rintro ⟨h1, h2⟩
          exact ⟨fun c => absurd c ha, fun e he e' he' => h1 e (by simp [he]) e' (by simp [he']), fun h0 e he => h2 h0 e (by simp [he])⟩
  rw [key]
  exact ⟨fun h => h.1, fun h => ⟨h, fun h0 => absurd rfl h0⟩⟩

/-- The method of the image is that of its compressed entries. -/
theorem lastMethod_eq {es : List Spec.Udif.Entry} (h : ∀ e ∈ es, ∀ e' ∈ es, e.compressed → e'.compressed → e.kind = e'.kind)
    {e : Spec.Udif.Entry} (he : e ∈ es) (hc : e.compressed) : lastMethod 0 es = e.kind := by
  have key : ∀ (es : List Spec.Udif.Entry) (m : Nat), (∃ e ∈ es, e.compressed) → (∃ e ∈ es, e.compressed ∧ lastMethod m es = e.kind) := by
    intro es
    induction es with
    | nil => rintro m ⟨e, he, _⟩; cases he
    | cons a es ih =>
      rintro m ⟨e, he, hc⟩
      by_cases hx : ∃ e ∈ es, e.compressed
      · obtain ⟨x, hx, hxc, hk⟩ := ih (methodAfter m a) hx
        exact ⟨x, by simp [hx], hxc, hk⟩
      · have hea : e = a := by
          rcases List.mem_cons.1 he with h | h
          · exact h
          · exact absurd ⟨e, h, hc⟩ hx
        subst hea
        refine ⟨e, by simp, hc, ?_⟩
        have : ∀ (l : List Spec.Udif.Entry), (¬ ∃ e ∈ l, e.compressed) → ∀ m, lastMethod m l = m := by
          intro l
          induction l with
          | nil => intro _ _; rfl
          | cons b l ihl =>
            intro hn m
            have hb : ¬ b.compressed := fun h => hn ⟨b, by simp, h⟩
            show lastMethod (methodAfter m b) l = m
            rw [ihl (fun ⟨x, hx, hxc⟩ => hn ⟨x, by simp [hx], hxc⟩)]
            exact if_neg hb
        show lastMethod (methodAfter m e) es = e.kind
        rw [this es hx]
        exact if_pos hc
  obtain ⟨x, hx, hxc, hk⟩ := key es 0 ⟨e, he, hc⟩
  rw [hk]
  exact h x hx e he hxc hc

/-! ## The tree -/

set_option maxRecDepth 4000

/-- The ranges of the tree. -/
def treeRanges (es : List Spec.Udif.Entry) : List (BlockTree.Range Range) :=
  (placed 0 es).map fun p => ⟨p.1 * 512, p.2.sectors * 512, toRange p⟩

theorem fillTree_eq (rs : List Range) (t : BlockTree.Tree Range) :
    fillTree rs t = BlockTree.insertAll (rs.map fun r => ⟨r.mediaOffset, r.size, r⟩) t := by
  induction rs generalizing t with
  | nil => rfl
  | cons r rs ih =>
    unfold fillTree
    rw [List.map_cons, BlockTree.insertAll]
    simp only
    cases BlockTree.insert t r.mediaOffset r.size r with
    | ok t' => rw [R.ok_bind, R.ok_bind, ih]
    | err => rfl
    | panic => rfl

theorem fill_ranges (es : List Spec.Udif.Entry) (t : BlockTree.Tree Range) :
    fillTree ((placed 0 es).map toRange).reverse t = BlockTree.insertAll (treeRanges es).reverse t := by
  rw [fillTree_eq, List.map_reverse, List.map_map]
  rfl

theorem follow_placed {es : List Spec.Udif.Entry} (h : ∀ e ∈ es, 0 < e.sectors) (n : Nat) :
    BlockTree.Follow (n * 512) ((placed n es).map fun p => (⟨p.1 * 512, p.2.sectors * 512, toRange p⟩ : BlockTree.Range Range)) := by
  induction es generalizing n with
  | nil => trivial
  | cons e es ih =>
    rw [placed, List.map_cons]
    refine ⟨rfl, Nat.mul_pos (h e (by simp)) (by omega), ?_⟩
    simp only
    rw [← Nat.add_mul]
    exact ih (fun e he => h e (by simp [he])) _

theorem placed_inside {es : List Spec.Udif.Entry} {n : Nat} {p : Nat × Spec.Udif.Entry} (h : p ∈ placed n es) :
    n ≤ p.1 ∧ p.1 + p.2.sectors ≤ n + sectorsOf es ∧ p.2 ∈ es := by
  induction es generalizing n with
  | nil => cases h
  | cons e es ih =>
    have hs : sectorsOf (e :: es) = e.sectors + sectorsOf es := by unfold sectorsOf; rw [List.map_cons, List.sum_cons]
    rw [hs]
    rcases List.mem_cons.1 h with rfl | h
    · exact ⟨Nat.le_refl _, by simp only; omega, by simp⟩
    · obtain ⟨h1, h2, h3⟩ := ih h
      exact ⟨by omega, by omega, by simp [h3]⟩

theorem placed_apart {es : List Spec.Udif.Entry} (n : Nat) :
    ((placed n es).map fun p => (⟨p.1 * 512, p.2.sectors * 512, toRange p⟩ : BlockTree.Range Range)).Pairwise BlockTree.Range.apart := by
  induction es generalizing n with
  | nil => exact List.Pairwise.nil
  | cons e es ih =>
    rw [placed, List.map_cons, List.pairwise_cons]
    refine ⟨fun r hr => ?_, ih _⟩
    obtain ⟨p, hp, rfl⟩ := List.mem_map.1 hr
    obtain ⟨h1, _, _⟩ := placed_inside hp
    intro x hx
    have h2 := hx.1.2
    have h3 := hx.2.1
    simp only at h2 h3
    have : (n + e.sectors) * 512 ≤ p.1 * 512 := Nat.mul_le_mul_right _ h1
    omega

/-- The size of the tree. -/
def treeSize (total : Nat) : Nat := (total + 16383) / 16384 * 16384 * 512

theorem treeSize_bounds {total : Nat} (hb : total + 16384 ≤ 2 ^ 55) :
    total * 512 ≤ treeSize total ∧ (total + 16383) / 16384 * 16384 < 2 ^ 55 ∧ treeSize total < 2 ^ 64 ∧ (total ≤ 16384 → treeSize total ≤ 512 * 16384) := by
  have h1 : total ≤ (total + 16383) / 16384 * 16384 := by omega
  have h2 : (total + 16383) / 16384 * 16384 < 2 ^ 55 := by omega
  refine ⟨Nat.mul_le_mul_right _ h1, h2, mul512 h2, fun h => ?_⟩
  have : (total + 16383) / 16384 * 16384 ≤ 16384 := by omega
  unfold treeSize
  rw [Nat.mul_comm 512]
  exact Nat.mul_le_mul_right _ this

/-- What has been opened. -/
structure Opened (fork size : Nat) (ts : List (List Byte)) (image : Image) : Prop where
  forkZero : image.forkOffset = 0
  has : image.hasRanges = true
  media : image.mediaSize = sectorsOf (usedOf (ts.map tableOf)) * 512
  method : image.method = lastMethod 0 (usedOf (ts.map tableOf))
  data : image.tree.dataSize = treeSize (sectorsOf (usedOf (ts.map tableOf)))
  holds : BlockTree.Holds image.tree (treeRanges (usedOf (ts.map tableOf))).reverse
  tables : ∀ d ∈ ts, TableOk d
  describes : Describes fork size (ts.map tableOf)

theorem openTables_sat {fork size : Nat} (ts : List (List Byte)) (hb : sectorsOf (usedOf (ts.map tableOf)) + 16384 ≤ 2 ^ 55) {image : Image}
    (h : openTables fork (fork + size) ts = .ok image) : Opened fork size ts image := by
  unfold openTables at h
  obtain ⟨s, h1, h⟩ := R.bind_eq_ok.1 h
  obtain ⟨rfl, q1, q2, q3, q4⟩ := (tablesLoop_good ts (by simp only [Nat.zero_mul]) (by simp only; omega)).of_ok h1
  simp only [Nat.zero_add, List.nil_append] at h q2
  generalize hes : usedOf (ts.map tableOf) = es at *
  obtain ⟨b1, b2, b3, b4⟩ := treeSize_bounds hb
  unfold BlockTree.divCeil at h
  rw [show sectorsOf es + 16384 - 1 = sectorsOf es + 16383 by omega, R.mulU_ok (by omega), R.ok_bind, R.mulU_ok (mul512 b2), R.ok_bind,
    fill_ranges] at h
  obtain ⟨tree, h3, h⟩ := R.bind_eq_ok.1 h
  simp only [R.pure_eq, R.ok.injEq] at h
  subst h
  have hpos : ∀ e ∈ es, 0 < e.sectors := fun e he => (q3 e he).2.1
  have hf := follow_placed hpos 0
  rw [Nat.zero_mul] at hf
  obtain ⟨hh, d1, -⟩ := BlockTree.insertAll_reverse (BlockTree.new_holds _ _ _ (by omega)) hf h3
  exact ⟨rfl, rfl, by rw [hes], by rw [hes], by rw [hes]; exact d1, by rw [hes]; exact hh, q1, q2, by rw [hes]; exact q3, by rw [hes]; exact methodOk_iff.1 q4⟩

theorem div_mul_512 (a b : Nat) : a * 512 / (512 * b) = a / b := by
  rw [Nat.mul_comm a 512, Nat.mul_div_mul_left _ _ (by omega)]

theorem openTables_good {fork size : Nat} (ts : List (List Byte)) (hb : sectorsOf (usedOf (ts.map tableOf)) + 16384 ≤ 2 ^ 55)
    (hw : Windowed (ts.map tableOf)) :
    R.Good ((∀ d ∈ ts, TableOk d) ∧ Describes fork size (ts.map tableOf)) (openTables fork (fork + size) ts) (Opened fork size ts) := by
  refine ⟨R.Sat.intro ?_ (fun image h => openTables_sat ts hb h), ?_⟩
  all_goals
    have hg := tablesLoop_good (fork := fork) (size := size) ts (s := ⟨[], 0, 0, 0⟩) (by simp only [Nat.zero_mul]) (by simp only; omega)
    have key : ∀ s, tablesLoop fork (fork + size) ts ⟨[], 0, 0, 0⟩ = .ok s → ∃ image, openTables fork (fork + size) ts = .ok image := by
      intro s h1
      obtain ⟨rfl, q1, q2, q3, q4⟩ := hg.of_ok h1
      unfold openTables
      rw [h1, R.ok_bind]
      simp only [Nat.zero_add, List.nil_append]
      unfold Windowed at hw
      generalize hes : usedOf (ts.map tableOf) = es at *
      obtain ⟨b1, b2, b3, b4⟩ := treeSize_bounds hb
      unfold BlockTree.divCeil
      rw [show sectorsOf es + 16384 - 1 = sectorsOf es + 16383 by omega, R.mulU_ok (by omega), R.ok_bind, R.mulU_ok (mul512 b2), R.ok_bind,
        fill_ranges]
      have hdat : (BlockTree.new (treeSize (sectorsOf es)) 16384 512 : BlockTree.Tree Range).dataSize = treeSize (sectorsOf es) := rfl
      obtain ⟨tree, ht⟩ := BlockTree.insertAll_window (rs := (treeRanges es).reverse) (BlockTree.new_holds (treeSize (sectorsOf es)) 16384 512 (by omega))
        (by show 2 ≤ 16384; omega) (by show 16384 * 512 < 2 ^ 64; omega) (Or.inl rfl) (by rw [hdat]; exact b3) (by
          intro r hr
          obtain ⟨p, hp, rfl⟩ := List.mem_map.1 (List.mem_reverse.1 hr)
          obtain ⟨i1, i2, i3⟩ := placed_inside hp
          have hpos := (q3 p.2 i3).2.1
          refine ⟨Nat.mul_pos hpos (by omega), ?_, Nat.dvd_mul_left _ _, Nat.dvd_mul_left _ _, ?_⟩
          · rw [hdat]
            simp only
            rw [← Nat.add_mul]
            exact Nat.le_trans (Nat.mul_le_mul_right _ (by omega)) b1
          · rcases hw with hw | hw
            · left
              rw [hdat]
              exact b4 hw
            · right
              obtain ⟨w1, w2⟩ := hw p hp
              refine ⟨?_, ?_⟩
              · show p.2.sectors * 512 < 512 * 16384
                omega
              · show p.1 * 512 / (512 * 16384) = (p.1 * 512 + p.2.sectors * 512 - 1) / (512 * 16384)
                rw [div_mul_512, w2]
                omega)
        (List.pairwise_reverse.2 ((placed_apart 0).imp BlockTree.apart_symm)) (by intro b hb; cases hb)
      rw [show (sectorsOf es + 16383) / 16384 * 16384 * 512 = treeSize (sectorsOf es) from rfl, ht, R.ok_bind]
      exact ⟨_, rfl⟩
  · intro hp
    cases hs : tablesLoop fork (fork + size) ts ⟨[], 0, 0, 0⟩ with
    | ok s => obtain ⟨image, e⟩ := key s hs; rw [e] at hp; cases hp
    | err => unfold openTables at hp; rw [hs] at hp; cases hp
    | panic => exact absurd hs hg.ne_panic
  · rintro ⟨h1, h2, h3, h4⟩
    obtain ⟨s, hs, -⟩ := hg.exists_ok ⟨h1, h2, h3, methodOk_iff.2 h4⟩
    obtain ⟨image, e⟩ := key s hs
    rw [e]; simp

/-! ## The media -/

variable {dec : Nat → List Byte → Nat → R (List Byte)} {file : List Byte}

theorem bytesOf_length {e : Spec.Udif.Entry} (h : Readable dec file e) : (bytesOf dec file e).length = e.sectors * 512 := by
  unfold bytesOf
  by_cases h1 : e.kind = 1
  · rw [if_pos h1]; simp
  · rw [if_neg h1]
    by_cases hc : e.compressed
    · rw [if_pos hc]
      obtain ⟨-, -, out, h2, h3⟩ := h.2 hc
      rw [h2]; exact h3
    · rw [if_neg hc]; simp

theorem media_get {es : List Spec.Udif.Entry} (h : ∀ e ∈ es, Readable dec file e) (n : Nat) {p : Nat × Spec.Udif.Entry} (hp : p ∈ placed n es)
    {i : Nat} (hi : i < p.2.sectors * 512) : (es.flatMap (bytesOf dec file))[(p.1 - n) * 512 + i]? = (bytesOf dec file p.2)[i]? := by
  induction es generalizing n with
  | nil => cases hp
  | cons e es ih =>
    rw [List.flatMap_cons]
    have hl := bytesOf_length (h e (by simp))
    rcases List.mem_cons.1 hp with rfl | hp
    · rw [List.getElem?_append_left (by simp only at hi ⊢; omega)]
      congr 1; simp only; omega
    · have h1 := (placed_inside hp).1
      rw [List.getElem?_append_right (by
        rw [hl]
        have : e.sectors * 512 ≤ (p.1 - n) * 512 := Nat.mul_le_mul_right _ (by omega)
        omega), hl, ← ih (fun e he => h e (by simp [he])) _ hp]
      congr 1
      rw [show p.1 - (n + e.sectors) = p.1 - n - e.sectors by omega, Nat.sub_mul]
      have : e.sectors * 512 ≤ (p.1 - n) * 512 := Nat.mul_le_mul_right _ (by omega)
      omega

theorem media_length {es : List Spec.Udif.Entry} (h : ∀ e ∈ es, Readable dec file e) : (es.flatMap (bytesOf dec file)).length = sectorsOf es * 512 := by
  induction es with
  | nil => simp [sectorsOf]
  | cons e es ih =>
    have hs : sectorsOf (e :: es) = e.sectors + sectorsOf es := by unfold sectorsOf; rw [List.map_cons, List.sum_cons]
    rw [List.flatMap_cons, List.length_append, ih (fun e he => h e (by simp [he])), bytesOf_length (h e (by simp)), hs, Nat.add_mul]

theorem placed_find {es : List Spec.Udif.Entry} {n x : Nat} (h1 : n * 512 ≤ x) (h2 : x < (n + sectorsOf es) * 512) :
    ∃ p ∈ placed n es, p.1 * 512 ≤ x ∧ x < (p.1 + p.2.sectors) * 512 := by
  induction es generalizing n with
  | nil => simp only [sectorsOf, List.map_nil, List.sum_nil, Nat.add_zero] at h2; omega
  | cons e es ih =>
    have hs : sectorsOf (e :: es) = e.sectors + sectorsOf es := by unfold sectorsOf; rw [List.map_cons, List.sum_cons]
    by_cases hc : x < (n + e.sectors) * 512
    · exact ⟨(n, e), by rw [placed]; simp, h1, hc⟩
    · obtain ⟨p, hp, h⟩ := ih (n := n + e.sectors) (by omega) (by rw [hs] at h2; rw [Nat.add_assoc]; exact h2)
      exact ⟨p, by rw [placed]; simp [hp], h⟩

/-- What the cache may have. -/
structure CacheOk (dec : Nat → List Byte → Nat → R (List Byte)) (file : List Byte) (es : List Spec.Udif.Entry) (c : Cache) : Prop where
  capacity : c.numberOfEntries = 64
  usage : c.usage.length ≤ 64
  values : ∀ k v, c.values k = some v → ∃ e ∈ es, e.compressed ∧ e.dataOffset = k ∧ v = bytesOf dec file e

theorem newCache_ok (es : List Spec.Udif.Entry) : CacheOk dec file es newCache :=
  ⟨rfl, Nat.zero_le _, fun k v h => by cases h⟩

theorem insert_cache {es : List Spec.Udif.Entry} {c : Cache} (h : CacheOk dec file es c) {e : Spec.Udif.Entry} (he : e ∈ es) (hc : e.compressed) :
    ∃ c', c.insert e.dataOffset (bytesOf dec file e) = .ok c' ∧ CacheOk dec file es c' ∧ c'.get e.dataOffset = some (bytesOf dec file e) := by
  unfold LruCache.Cache.insert
  have hcap := h.capacity
  have hus := h.usage
  by_cases hf : c.usage.length = c.numberOfEntries
  · rw [if_pos hf]
    cases hu : c.usage with
    | nil => rw [hu] at hf; simp at hf; omega
    | cons l rest =>
      simp only [R.ok_bind]
      refine ⟨_, rfl, ⟨hcap, ?_, fun k v hv => ?_⟩, by simp [LruCache.Cache.get]⟩
      · rw [hu] at hus; simpa using hus
      · simp only at hv
        split at hv
        · next hk => exact ⟨e, he, hc, hk.symm, (Option.some.inj hv).symm⟩
        · split at hv
          · cases hv
          · exact h.values k v hv
  · rw [if_neg hf, R.ok_bind]
    refine ⟨_, rfl, ⟨hcap, ?_, fun k v hv => ?_⟩, by simp [LruCache.Cache.get]⟩
    · simp only [List.length_append, List.length_singleton]; omega
    · simp only at hv
      split at hv
      · next hk => exact ⟨e, he, hc, hk.symm, (Option.some.inj hv).symm⟩
      · exact h.values k v hv

theorem cached_ok {fork size : Nat} {ts : List (List Byte)} {image : Image} (ho : Opened fork size ts image)
    (hr : ∀ e ∈ usedOf (ts.map tableOf), Readable dec file e) (hcon : Consistent (ts.map tableOf))
    {c : Cache} (h : CacheOk dec file (usedOf (ts.map tableOf)) c) {p : Nat × Spec.Udif.Entry} (hp : p ∈ placed 0 (usedOf (ts.map tableOf)))
    (hc : p.2.compressed) :
    ∃ c', cached dec file image c (toRange p) = .ok c' ∧ CacheOk dec file (usedOf (ts.map tableOf)) c' ∧
      c'.get p.2.dataOffset = some (bytesOf dec file p.2) := by
  obtain ⟨-, -, he⟩ := placed_inside hp
  have hone := ho.describes.2.2
  have hdo : (toRange p).dataOffset = p.2.dataOffset := if_pos (Or.inr hc)
  unfold cached
  rw [hdo]
  by_cases hcon' : c.contains p.2.dataOffset = true
  · rw [if_pos hcon']
    refine ⟨c, rfl, h, ?_⟩
    unfold LruCache.Cache.contains at hcon'
    obtain ⟨v, hv⟩ := Option.isSome_iff_exists.1 hcon'
    obtain ⟨e, he', hec, hed, hev⟩ := h.values _ _ hv
    show c.values p.2.dataOffset = _
    rw [hv, hev]
    obtain ⟨s1, s2⟩ := hcon e he' p.2 he hec hc hed
    have s3 := hone e he' p.2 he hec hc
    have : e.kind = p.2.kind := s3
    unfold bytesOf
    have hk1 : p.2.kind ≠ 1 := by have := hc.1; omega
    rw [if_neg (by omega), if_neg hk1, if_pos hec, if_pos hc, s1, s2, s3, hed]
  · rw [if_neg hcon']
    obtain ⟨r1, r2, out, r3, r4⟩ := (hr p.2 he).2 hc
    have hk1 : p.2.kind ≠ 1 := by have := hc.1; omega
    have hb : bytesOf dec file p.2 = out := by
      unfold bytesOf
      rw [if_neg hk1, if_pos hc, r3]
    have hread : readCompressed dec file image (toRange p) = .ok (bytesOf dec file p.2) := by
      unfold readCompressed
      have hcs : (toRange p).compressedSize = p.2.dataSize := by
        show (if p.2.compressed then p.2.dataSize % 2 ^ 32 else 0) = _
        rw [if_pos hc, Nat.mod_eq_of_lt r1]
      rw [hdo, hcs, readExactAt_ok r2, R.ok_bind, ho.method, lastMethod_eq hone he hc, if_neg (by have := hc.1; omega)]
      show dec p.2.kind (bytesAt file p.2.dataOffset p.2.dataSize) (p.2.sectors * 512) = _
      rw [r3, hb]
    rw [hread, R.ok_bind]
    exact insert_cache h he hc

theorem take_drop_prefix {C B : List Byte} {pos rel count n : Nat} (hlen : rel + count ≤ B.length) (hn : count ≤ n) (hpos : 0 < count)
    (hC : pos + count ≤ C.length) (h : ∀ i, i < count → C[pos + i]? = B[rel + i]?) :
    (B.drop rel).take count ≠ [] ∧ (B.drop rel).take count <+: (C.drop pos).take n := by
  have hl : ((B.drop rel).take count).length = count := by rw [List.length_take, List.length_drop]; omega
  refine ⟨fun e => by rw [e] at hl; simp at hl; omega, Blocks.prefix_of_bytes (by omega) (by omega) fun i hi => ?_⟩
  rw [hl] at hi
  rw [List.getElem?_take_of_lt hi, List.getElem?_drop, h i hi]

theorem piece_ok {fork size : Nat} {ts : List (List Byte)} {image : Image} (ho : Opened fork size ts image) (hU : file.length < 2 ^ 63)
    (hb : sectorsOf (usedOf (ts.map tableOf)) + 16384 ≤ 2 ^ 55)
    (hr : ∀ e ∈ usedOf (ts.map tableOf), Readable dec file e) (hcon : Consistent (ts.map tableOf))
    {c : Cache} (h : CacheOk dec file (usedOf (ts.map tableOf)) c) {pos n : Nat} (hn : 0 < n)
    (hpos : pos + n ≤ (contents dec file (ts.map tableOf)).length) :
    ∃ out c', piece dec file image c pos n = .ok (out, c') ∧ CacheOk dec file (usedOf (ts.map tableOf)) c' ∧ out ≠ [] ∧
      out <+: ((contents dec file (ts.map tableOf)).drop pos).take n := by
  have hlen : (contents dec file (ts.map tableOf)).length = sectorsOf (usedOf (ts.map tableOf)) * 512 := media_length hr
  obtain ⟨b1, -⟩ := treeSize_bounds hb
  obtain ⟨p, hp, p1, p2⟩ := placed_find (es := usedOf (ts.map tableOf)) (n := 0) (x := pos)
    (by rw [Nat.zero_mul]; exact Nat.zero_le _) (by rw [Nat.zero_add, ← hlen]; exact Nat.lt_of_lt_of_le (Nat.lt_add_of_pos_right hn) hpos)
  obtain ⟨-, i2, he⟩ := placed_inside hp
  have hget : BlockTree.get image.tree pos = .ok (some (toRange p)) := by
    refine BlockTree.get_range (r := ⟨p.1 * 512, p.2.sectors * 512, toRange p⟩) ho.holds ?_ ⟨p1, ?_⟩ (by rw [ho.data]; omega)
    · rw [List.mem_reverse]; exact List.mem_map.2 ⟨p, hp, rfl⟩
    · simp only; rw [← Nat.add_mul]; exact p2
  have hmo : (toRange p).mediaOffset = p.1 * 512 := rfl
  have hsz : (toRange p).size = p.2.sectors * 512 := rfl
  rw [Nat.add_mul] at p2
  unfold piece
  rw [hget, R.ok_bind]
  simp only
  rw [hmo, hsz, R.subU_ok p1, R.ok_bind, R.subU_ok (by omega), R.ok_bind]
  have hB := bytesOf_length (hr p.2 he)
  generalize hrel : pos - p.1 * 512 = rel
  have hcount : rel + min n (p.2.sectors * 512 - rel) ≤ p.2.sectors * 512 := by omega
  generalize hcnt : min n (p.2.sectors * 512 - rel) = count at *
  have hmed : ∀ i, i < count → (contents dec file (ts.map tableOf))[pos + i]? = (bytesOf dec file p.2)[rel + i]? := by
    intro i hi
    have := media_get hr 0 hp (i := rel + i) (by omega)
    rw [← this]
    show _ = (contents dec file (ts.map tableOf))[_]?
    congr 1
    omega
  obtain ⟨t1, t2⟩ := take_drop_prefix (B := bytesOf dec file p.2) (C := contents dec file (ts.map tableOf)) (pos := pos) (rel := rel) (count := count) (n := n)
    (by omega) (by omega) (by omega) (by omega) hmed
  have hk : (toRange p).kind = kindOf p.2 := rfl
  unfold rangeBytes
  rw [hk]
  unfold kindOf
  by_cases h1 : p.2.kind = 1
  · rw [if_pos h1]
    simp only
    have hnc : ¬ p.2.compressed := fun h => by have := h.1; omega
    have hin := (hr p.2 he).1 h1
    have hdo : (toRange p).dataOffset = p.2.dataOffset := if_pos (Or.inl h1)
    rw [hdo, R.addU_ok (by omega), R.ok_bind]
    have hbytes : Blocks.readAt file (p.2.dataOffset + rel) count = ((bytesOf dec file p.2).drop rel).take count := by
      unfold Blocks.readAt bytesOf
      rw [if_pos h1]
      apply List.ext_getElem?
      intro i
      by_cases hi : i < count
      · rw [List.getElem?_take_of_lt hi, List.getElem?_take_of_lt hi, List.getElem?_drop, List.getElem?_drop, List.getElem?_map,
          List.getElem?_range (by omega), Option.map_some, List.getElem?_eq_getElem (by omega), List.getD_eq_getElem?_getD,
          List.getElem?_eq_getElem (by omega)]
        simp only [Option.getD_some, Nat.add_assoc]
      · rw [List.getElem?_eq_none (by rw [List.length_take]; omega), List.getElem?_eq_none (by rw [List.length_take]; omega)]
    rw [hbytes]
    exact ⟨_, _, rfl, h, t1, t2⟩
  · rw [if_neg h1]
    by_cases hc : p.2.compressed
    · rw [if_pos hc]
      simp only
      obtain ⟨c', e1, e2, e3⟩ := cached_ok ho hr hcon h hp hc
      have hdo : (toRange p).dataOffset = p.2.dataOffset := if_pos (Or.inr hc)
      rw [e1, R.ok_bind, hdo, e3]
      simp only
      rw [R.slice_ok (by omega) (by omega), R.ok_bind, Nat.add_sub_cancel_left]
      exact ⟨_, _, rfl, e2, t1, t2⟩
    · rw [if_neg hc]
      simp only
      have hbytes : List.replicate count 0#8 = ((bytesOf dec file p.2).drop rel).take count := by
        unfold bytesOf
        rw [if_neg h1, if_neg hc, List.drop_replicate, List.take_replicate]
        congr 1; omega
      rw [hbytes]
      exact ⟨_, _, rfl, h, t1, t2⟩

theorem stream_trace {fork size : Nat} {ts : List (List Byte)} {image : Image} (ho : Opened fork size ts image) (hU : file.length < 2 ^ 63)
    (hr : ∀ e ∈ usedOf (ts.map tableOf), Readable dec file e) (hcon : Consistent (ts.map tableOf)) (ops : List StreamOp)
    (hf : sectorsOf (usedOf (ts.map tableOf)) * 512 + seekBudget ops < 2 ^ 63) :
    ∃ tr, Stream.run (stream dec file image) ⟨newCache, 0⟩ ops = .ok tr ∧ tr.map Prod.fst = ops ∧
      Trace true (contents dec file (ts.map tableOf)) (sectorsOf (usedOf (ts.map tableOf)) * 512) 0 tr := by
  have hlen : (contents dec file (ts.map tableOf)).length = sectorsOf (usedOf (ts.map tableOf)) * 512 := media_length hr
  have hb : sectorsOf (usedOf (ts.map tableOf)) + 16384 ≤ 2 ^ 55 := by
    generalize sectorsOf (usedOf (ts.map tableOf)) = T at hf
    have : T < 2 ^ 54 := by
      by_contra hc
      have := Nat.mul_le_mul_right 512 (show 2 ^ 54 ≤ T by omega)
      omega
    omega
  have hs : stream dec file image = Blocks.reader (piece dec file image) (contents dec file (ts.map tableOf)).length := by
    unfold stream; rw [hlen, ho.media]
  rw [hs, ← hlen]
  refine Blocks.blocks_correct (Inv := CacheOk dec file (usedOf (ts.map tableOf))) ?_ ?_ ops (by omega) _ (newCache_ok _)
  · intro c pos n out c' hc hn hpos h
    obtain ⟨out', c'', e, h1, h2, h3⟩ := piece_ok ho hU hb hr hcon hc hn hpos
    rw [e, R.ok.injEq, Prod.mk.injEq] at h
    obtain ⟨rfl, rfl⟩ := h
    exact ⟨h1, h2, h3⟩
  · intro c pos n hc hn hpos
    obtain ⟨out', c'', e, -⟩ := piece_ok ho hU hb hr hcon hc hn hpos
    exact ⟨_, _, e⟩

theorem sectors_bound {T b : Nat} (hf : T * 512 + b < 2 ^ 63) : T + 16384 ≤ 2 ^ 55 := by
  have : T < 2 ^ 54 := by
    by_contra hc
    have := Nat.mul_le_mul_right 512 (show 2 ^ 54 ≤ T by omega)
    omega
  omega

/-! ## Opening -/

theorem plist_read (file : List Byte) :
    Blocks.readAt file (plistOffset file) (plistSize file) ++
      List.replicate (plistSize file - (Blocks.readAt file (plistOffset file) (plistSize file)).length) 0#8 = plistBytes file := by
  unfold plistBytes Blocks.readAt
  generalize plistOffset file = o
  generalize plistSize file = n
  apply List.ext_getElem?
  intro i
  rw [List.getElem?_map]
  have hl : ((file.drop o).take n).length = min n (file.length - o) := by rw [List.length_take, List.length_drop]
  by_cases hi : i < n
  · rw [List.getElem?_range hi, Option.map_some, List.getD_eq_getElem?_getD]
    by_cases h : i < min n (file.length - o)
    · rw [List.getElem?_append_left (by omega), List.getElem?_take_of_lt hi, List.getElem?_drop, List.getElem?_eq_getElem (by omega)]
      rfl
    · rw [List.getElem?_append_right (by omega), List.getElem?_replicate, if_pos (by omega), List.getElem?_eq_none (by omega)]
      rfl
  · rw [List.getElem?_eq_none (by rw [List.length_append, List.length_replicate]; omega), List.getElem?_eq_none (by rw [List.length_range]; omega)]
    rfl

theorem openImage_sat (plist : List Byte → R (List (List Byte))) (file : List Byte) {tables : List (List Byte)}
    (hplist : plist (plistBytes file) = .ok tables) (hsize : plistSize file ≠ 0)
    (hb : sectorsOf (usedOf (tables.map tableOf)) + 16384 ≤ 2 ^ 55) {image : Image} (h : openImage plist file = .ok image) :
    Opened (Spec.Udif.forkOffset file) (forkSize file) tables image := by
  unfold openImage at h
  obtain ⟨f, h1, h⟩ := R.bind_eq_ok.1 h
  obtain ⟨rfl, -⟩ := (readFooter_good file).of_ok h1
  simp only at h
  obtain ⟨e, h2, h⟩ := R.bind_eq_ok.1 h
  obtain ⟨-, rfl⟩ := BlockTree.addU_eq_ok.1 h2
  rw [if_neg hsize] at h
  obtain ⟨-, -, h⟩ := R.bind_eq_ok.1 h
  rw [plist_read, hplist, R.ok_bind] at h
  exact openTables_sat tables hb h

theorem openImage_good (plist : List Byte → R (List (List Byte))) (file : List Byte) {tables : List (List Byte)}
    (hplist : plist (plistBytes file) = .ok tables) (hsize : plistSize file ≠ 0)
    (hfork : Spec.Udif.forkOffset file + forkSize file < 2 ^ 64) (hb : sectorsOf (usedOf (tables.map tableOf)) + 16384 ≤ 2 ^ 55)
    (hw : Windowed (tables.map tableOf)) :
    R.Good (FooterOk file ∧ plistSize file ≤ 65536 ∧ (∀ d ∈ tables, TableOk d) ∧
        Describes (Spec.Udif.forkOffset file) (forkSize file) (tables.map tableOf))
      (openImage plist file)
      (fun image => FooterOk file ∧ plistSize file ≤ 65536 ∧ Opened (Spec.Udif.forkOffset file) (forkSize file) tables image) := by
  unfold openImage
  refine R.Good.bind ((readFooter_good file).mono (fun h => h.1) (fun _ h => h)) ?_
  rintro f ⟨rfl, hF⟩
  simp only
  rw [R.addU_ok hfork, R.ok_bind, if_neg hsize]
  refine R.Good.bind (R.Good.require (fun h => h.2.1)) ?_
  intro _ hs
  rw [plist_read, hplist, R.ok_bind]
  exact (openTables_good tables hb hw).mono (fun h => h.2.2) (fun image h => ⟨hF, hs, h⟩)

theorem openFork_good (plist : List Byte → R (List (List Byte))) (file : List Byte) (hsize : plistSize file = 0)
    (hfork : Spec.Udif.forkOffset file + forkSize file < 2 ^ 64) :
    R.Good (FooterOk file) (openImage plist file)
      (fun image => FooterOk file ∧ image = ⟨Spec.Udif.forkOffset file, false, forkSize file, 0, BlockTree.new 0 0 0⟩) := by
  unfold openImage
  refine R.Good.bind (readFooter_good file) ?_
  rintro f ⟨rfl, hF⟩
  simp only
  rw [R.addU_ok hfork, R.ok_bind, if_pos hsize]
  exact R.Good.ok ⟨hF, rfl⟩

theorem fork_trace {file : List Byte} {o n m : Nat} {b : Bool} {t : BlockTree.Tree Range} (hin : o + n ≤ file.length) (hfork : o + n < 2 ^ 64) (ops : List StreamOp)
    (hf : n + seekBudget ops < 2 ^ 63) :
    ∃ tr, Stream.run (forkStream file ⟨o, b, n, m, t⟩) ⟨(), 0⟩ ops = .ok tr ∧ tr.map Prod.fst = ops ∧
      Trace true (bytesAt file o n) n 0 tr := by
  have hl : (bytesAt file o n).length = n := bytesAt_length hin
  have hrd : ∀ pos k, pos + k ≤ n → pos < n → (forkStream file ⟨o, b, n, m, t⟩).readData () pos k = .ok (((bytesAt file o n).drop pos).take k, ()) := by
    intro pos k h h'
    simp only [forkStream]
    rw [R.addU_ok (by omega), R.ok_bind]
    simp only [R.pure_eq]
    congr 2
    unfold Blocks.readAt bytesAt
    rw [List.drop_take, List.drop_drop, List.take_take, Nat.min_eq_left (by omega)]
  have hro : ReaderOk (forkStream file ⟨o, b, n, m, t⟩) (fun _ => True) (bytesAt file o n) true := by
    intro s pos k out s' _ h1 h2 h
    rw [hrd pos k h2 h1, R.ok.injEq, Prod.mk.injEq] at h
    rw [← h.1]
    refine ⟨trivial, List.prefix_refl _, fun hn hp hnil => ?_, fun _ => rfl⟩
    have := congrArg List.length hnil
    rw [List.length_take, List.length_drop, List.length_nil] at this
    omega
  exact stream_correct hro (fun _ pos k _ h1 h2 => ⟨_, _, hrd pos k h2 h1⟩) (by rw [hl]; exact Nat.le_refl _) ops hf () trivial

end Keramics.Udif
