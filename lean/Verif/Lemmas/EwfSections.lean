import Verif.Lemmas.EwfInfo
import Verif.Props.Zlib

/-! # Lemmas: the sections of EWF images, in order -/

namespace Keramics.EwfInfo
open Keramics.Spec Keramics.Spec.Ewf Keramics.EwfImage Keramics.BlockTree

theorem kinds2 : kindData = dataKind ∧ kindDigest = digestKind ∧ kindHash = hashKind ∧ kindHeader = headerKind ∧ kindHeader2 = header2Kind ∧
    kindTable2 = table2Kind := by
  decide

/-- What a section does. -/
inductive Effect (segment : Nat) (p : Placed) (a : Info) : Info → Prop
  | data (h : p.sec.kind = dataKind) (hs : p.Sound 1048) (hi : a.setIdentifier = p.bytes 64 16) : Effect segment p a a
  | digest (h : p.sec.kind = digestKind) (hs : p.Sound 76) : Effect segment p a { a with md5 := p.bytes 0 16, sha1 := p.bytes 16 20 }
  | volume (h : p.sec.kind = disk ∨ p.sec.kind = volumeKind) (hv : p.sec.start + 1128 = p.sec.next) (hs : p.Sound 1048) : Effect segment p a
      { a with mediaType := EwfInfo.mediaType (leNat (p.bytes 0 1)), errorGranularity := leNat (p.bytes 56 4), setIdentifier := p.bytes 64 16 }
  | other (h : p.sec.kind = disk ∨ p.sec.kind = volumeKind) (hv : p.sec.start + 1128 ≠ p.sec.next) : Effect segment p a a
  | hash (h : p.sec.kind = hashKind) (hs : p.Sound 32) : Effect segment p a { a with md5 := p.bytes 0 16 }
  | header (h : p.sec.kind = headerKind) (hk : segment = 1) (v : Values) (hv : readHeaderData p.data a.values = .ok v) :
      Effect segment p a { a with values := v }
  | header2 (h : p.sec.kind = header2Kind) (hk : segment = 1) (v : Values) (hv : readHeader2Data p.data a.values = .ok v) :
      Effect segment p a { a with values := v }
  | table2 (h : p.sec.kind = table2Kind) (hs : p.Sound 20) (he : Checked p.file (p.sec.start + 100) (4 * leNat (p.bytes 0 4))) : Effect segment p a a
  | nothing (h : p.sec.kind ∉ [dataKind, digestKind, disk, volumeKind, hashKind, headerKind, header2Kind, table2Kind]) : Effect segment p a a

theorem readE01_ok {file : List Byte} {o : Nat} {r : Nat × Nat × List Byte} (h : readE01 file o = .ok r) :
    r = (leNat (bytesAt file o 1), leNat (bytesAt file (o + 56) 4), bytesAt file (o + 64) 16) ∧ Checked file o 1048 := by
  unfold readE01 at h
  obtain ⟨d, h1, h⟩ := R.bind_eq_ok.1 h
  obtain ⟨rfl, hl⟩ := read_bytesAt (by omega) h1
  have hd : (bytesAt file o 1052).length = 1052 := bytesAt_length hl
  rw [u32le_field (by omega), R.ok_bind, slice_bytesAt' (n := 1048) (by omega) (by omega), R.ok_bind, checksum_eq, R.ok_bind] at h
  obtain ⟨_, hc, h⟩ := R.bind_eq_ok.1 h
  rw [R.require_eq_ok, field_bytesAt (by omega), bytesAt_bytesAt (by omega)] at hc
  obtain ⟨m, hm, h⟩ := R.bind_eq_ok.1 h
  rw [u32le_field (by omega), R.ok_bind, slice_bytesAt' (n := 16) (by omega) (by omega), R.ok_bind, R.pure_eq, R.ok.injEq] at h
  subst h
  refine ⟨?_, hc⟩
  rw [← get_field_le hm, field_bytesAt (by omega), field_bytesAt (by omega), bytesAt_bytesAt (by omega)]
  rfl

theorem readDigest_ok {file : List Byte} {o : Nat} {r : List Byte × List Byte} (h : readDigest file o = .ok r) :
    r = (bytesAt file o 16, bytesAt file (o + 16) 20) ∧ Checked file o 76 := by
  unfold readDigest at h
  obtain ⟨d, h1, h⟩ := R.bind_eq_ok.1 h
  obtain ⟨rfl, hl⟩ := read_bytesAt (by omega) h1
  have hd : (bytesAt file o 80).length = 80 := bytesAt_length hl
  rw [u32le_field (by omega), R.ok_bind, slice_bytesAt' (n := 76) (by omega) (by omega), R.ok_bind, checksum_eq, R.ok_bind] at h
  obtain ⟨_, hc, h⟩ := R.bind_eq_ok.1 h
  rw [R.require_eq_ok, field_bytesAt (by omega), bytesAt_bytesAt (by omega)] at hc
  rw [slice_bytesAt' (n := 16) (by omega) (by omega), R.ok_bind, slice_bytesAt' (n := 20) (by omega) (by omega), R.ok_bind, R.pure_eq, R.ok.injEq] at h
  subst h
  refine ⟨?_, hc⟩
  rw [bytesAt_bytesAt (by omega), bytesAt_bytesAt (by omega)]
  rfl

theorem readHash_ok {file : List Byte} {o : Nat} {r : List Byte} (h : readHash file o = .ok r) : r = bytesAt file o 16 ∧ Checked file o 32 := by
  unfold readHash at h
  obtain ⟨d, h1, h⟩ := R.bind_eq_ok.1 h
  obtain ⟨rfl, hl⟩ := read_bytesAt (by omega) h1
  have hd : (bytesAt file o 36).length = 36 := bytesAt_length hl
  rw [u32le_field (by omega), R.ok_bind, slice_bytesAt' (n := 32) (by omega) (by omega), R.ok_bind, checksum_eq, R.ok_bind] at h
  obtain ⟨_, hc, h⟩ := R.bind_eq_ok.1 h
  rw [R.require_eq_ok, field_bytesAt (by omega), bytesAt_bytesAt (by omega)] at hc
  rw [slice_bytesAt' (n := 16) (by omega) (by omega), R.ok.injEq] at h
  subst h
  refine ⟨?_, hc⟩
  rw [bytesAt_bytesAt (by omega)]
  rfl

theorem infoStep_ok {segment : Nat} {file : List Byte} {s : EwfImage.Section} {t : Spec.Ewf.Section} {a c : Info} (hk : t.kind = s.kind)
    (hsize : ¬ (s.kind = done ∨ s.kind = next) → t.start + s.size = t.next) (h : infoStep segment file t.start s a = .ok c) :
    Effect segment ⟨file, t⟩ a c := by
  obtain ⟨k1, k2, k3, k4, k5, k6⟩ := kinds2
  obtain ⟨-, -, k7, k8, -, -⟩ := kinds
  unfold infoStep at h
  rw [k1, k2, k3, k4, k5, k6, k7, k8, ← hk] at h
  rw [← hk] at hsize
  by_cases e1 : t.kind = dataKind
  · rw [if_pos e1] at h
    obtain ⟨_, h1, h⟩ := R.bind_eq_ok.1 h
    obtain ⟨-, rfl⟩ := addU_eq_ok.1 h1
    obtain ⟨r, h2, h⟩ := R.bind_eq_ok.1 h
    obtain ⟨rfl, hc⟩ := readE01_ok h2
    simp only at h
    obtain ⟨_, h3, h⟩ := R.bind_eq_ok.1 h
    rw [R.require_eq_ok] at h3
    simp only [R.pure_eq, R.ok.injEq] at h
    subst h
    exact .data e1 hc h3
  rw [if_neg e1] at h
  by_cases e2 : t.kind = digestKind
  · rw [if_pos e2] at h
    obtain ⟨_, h1, h⟩ := R.bind_eq_ok.1 h
    obtain ⟨-, rfl⟩ := addU_eq_ok.1 h1
    obtain ⟨r, h2, h⟩ := R.bind_eq_ok.1 h
    obtain ⟨rfl, hc⟩ := readDigest_ok h2
    simp only [R.pure_eq, R.ok.injEq] at h
    subst h
    exact .digest e2 hc
  rw [if_neg e2] at h
  by_cases e3 : t.kind = disk ∨ t.kind = volumeKind
  · rw [if_pos e3] at h
    obtain ⟨_, h1, h⟩ := R.bind_eq_ok.1 h
    obtain ⟨-, rfl⟩ := addU_eq_ok.1 h1
    have hn : ¬ (t.kind = done ∨ t.kind = next) := by
      obtain ⟨d1, d2, -, -, d5, d6, -⟩ := distinct
      rcases e3 with e | e <;> rw [e] <;> simp [*]
    have hsz := hsize hn
    unfold volumeInfo at h
    by_cases e : s.size = 1128
    · rw [if_pos e] at h
      obtain ⟨r, h2, h⟩ := R.bind_eq_ok.1 h
      obtain ⟨rfl, hc⟩ := readE01_ok h2
      simp only [R.pure_eq, R.ok.injEq] at h
      subst h
      exact .volume e3 (by simp only; omega) hc
    · rw [if_neg e, R.ok.injEq] at h
      subst h
      exact .other e3 (by simp only; omega)
  rw [if_neg e3] at h
  by_cases e4 : t.kind = kindError2
  · rw [if_pos e4] at h
    obtain ⟨_, h1, h⟩ := R.bind_eq_ok.1 h
    obtain ⟨_, h2, h⟩ := R.bind_eq_ok.1 h
    obtain ⟨_, h3, h⟩ := R.bind_eq_ok.1 h
    simp only [R.pure_eq, R.ok.injEq] at h
    subst h
    refine .nothing ?_
    simp only
    rw [e4]
    decide
  rw [if_neg e4] at h
  by_cases e5 : t.kind = hashKind
  · rw [if_pos e5] at h
    obtain ⟨_, h1, h⟩ := R.bind_eq_ok.1 h
    obtain ⟨-, rfl⟩ := addU_eq_ok.1 h1
    obtain ⟨r, h2, h⟩ := R.bind_eq_ok.1 h
    obtain ⟨rfl, hc⟩ := readHash_ok h2
    simp only [R.pure_eq, R.ok.injEq] at h
    subst h
    exact .hash e5 hc
  rw [if_neg e5] at h
  by_cases e6 : t.kind = headerKind
  · rw [if_pos e6] at h
    obtain ⟨_, h0, h⟩ := R.bind_eq_ok.1 h
    rw [R.require_eq_ok] at h0
    obtain ⟨size, h1, h⟩ := R.bind_eq_ok.1 h
    obtain ⟨hle, rfl⟩ := subU_eq_ok.1 h1
    obtain ⟨_, h1, h⟩ := R.bind_eq_ok.1 h
    obtain ⟨-, rfl⟩ := addU_eq_ok.1 h1
    obtain ⟨v, h2, h⟩ := R.bind_eq_ok.1 h
    simp only [R.pure_eq, R.ok.injEq] at h
    subst h
    unfold readHeader at h2
    obtain ⟨_, h3, h2⟩ := R.bind_eq_ok.1 h2
    rw [R.require_eq_ok] at h3
    obtain ⟨d, h4, h2⟩ := R.bind_eq_ok.1 h2
    obtain ⟨rfl, -⟩ := read_bytesAt (by omega) h4
    have hsz := hsize (by rw [e6]; decide)
    refine .header e6 h0 v ?_
    unfold Placed.data
    simp only
    rw [show t.next - (t.start + 76) = s.size - 76 by omega]
    exact h2
  rw [if_neg e6] at h
  by_cases e7 : t.kind = header2Kind
  · rw [if_pos e7] at h
    obtain ⟨_, h0, h⟩ := R.bind_eq_ok.1 h
    rw [R.require_eq_ok] at h0
    obtain ⟨size, h1, h⟩ := R.bind_eq_ok.1 h
    obtain ⟨hle, rfl⟩ := subU_eq_ok.1 h1
    obtain ⟨_, h1, h⟩ := R.bind_eq_ok.1 h
    obtain ⟨-, rfl⟩ := addU_eq_ok.1 h1
    obtain ⟨v, h2, h⟩ := R.bind_eq_ok.1 h
    simp only [R.pure_eq, R.ok.injEq] at h
    subst h
    unfold readHeader2 at h2
    obtain ⟨_, h3, h2⟩ := R.bind_eq_ok.1 h2
    rw [R.require_eq_ok] at h3
    obtain ⟨d, h4, h2⟩ := R.bind_eq_ok.1 h2
    obtain ⟨rfl, -⟩ := read_bytesAt (by omega) h4
    have hsz := hsize (by rw [e7]; decide)
    refine .header2 e7 h0 v ?_
    unfold Placed.data
    simp only
    rw [show t.next - (t.start + 76) = s.size - 76 by omega]
    exact h2
  rw [if_neg e7] at h
  by_cases e8 : t.kind = table2Kind
  · rw [if_pos e8] at h
    obtain ⟨size, h1, h⟩ := R.bind_eq_ok.1 h
    obtain ⟨_, h1, h⟩ := R.bind_eq_ok.1 h
    obtain ⟨-, rfl⟩ := addU_eq_ok.1 h1
    obtain ⟨⟨base, es⟩, h2, h⟩ := R.bind_eq_ok.1 h
    simp only [R.pure_eq, R.ok.injEq] at h
    subst h
    have ht := readTable_ok h2
    exact .table2 e8 ht.2.2.1 ht.2.2.2
  rw [if_neg e8, R.ok.injEq] at h
  subst h
  refine .nothing ?_
  simp only [List.mem_cons, List.not_mem_nil, or_false, not_or]
  rw [not_or] at e3
  exact ⟨e1, e2, e3.1, e3.2, e5, e6, e7, e8⟩

/-! ## All sections -/

/-- The sections that were read have their sizes. -/
def Sized : List EwfImage.Section → Nat → Prop
  | [], _ => True
  | s :: ss, o => (¬ (s.kind = done ∨ s.kind = next) → o + s.size = s.next) ∧ Sized ss (o + s.size)

theorem sectionsLoop_sized {file : List Byte} {n : Nat} (o : Nat) {secs : List EwfImage.Section} {final : Nat}
    (h : sectionsLoop file n o = .ok (secs, final)) : Sized secs o := by
  induction n generalizing o secs final with
  | zero => cases h
  | succ n ih =>
    unfold sectionsLoop at h
    by_cases ho : o < file.length
    swap
    · rw [if_neg ho, R.ok.injEq, Prod.mk.injEq] at h
      rw [← h.1]
      trivial
    rw [if_pos ho] at h
    obtain ⟨s, h1, h⟩ := R.bind_eq_ok.1 h
    obtain ⟨⟨size, last⟩, h2, h⟩ := R.bind_eq_ok.1 h
    simp only at h
    obtain ⟨b, h3, h⟩ := R.bind_eq_ok.1 h
    obtain ⟨-, rfl⟩ := addU_eq_ok.1 h3
    unfold sectionSize at h2
    rw [kinds.1, kinds.2.1] at h2
    by_cases hlast : s.kind = done ∨ s.kind = next
    · rw [if_pos hlast] at h2
      obtain ⟨_, -, h2⟩ := R.bind_eq_ok.1 h2
      obtain ⟨_, -, h2⟩ := R.bind_eq_ok.1 h2
      simp only [R.pure_eq, R.ok.injEq, Prod.mk.injEq] at h2
      obtain ⟨rfl, rfl⟩ := h2
      simp only [if_true, R.pure_eq, R.ok.injEq, Prod.mk.injEq] at h
      rw [← h.1]
      exact ⟨fun hn => absurd hlast hn, trivial⟩
    · rw [if_neg hlast] at h2
      obtain ⟨_, q1, h2⟩ := R.bind_eq_ok.1 h2
      obtain ⟨_, -, h2⟩ := R.bind_eq_ok.1 h2
      obtain ⟨_, q3, h2⟩ := R.bind_eq_ok.1 h2
      rw [R.require_eq_ok] at q1 q3
      simp only [R.pure_eq, R.ok.injEq, Prod.mk.injEq] at h2
      obtain ⟨rfl, rfl⟩ := h2
      simp only [Bool.false_eq_true, if_false] at h
      obtain ⟨⟨rest, fin⟩, h4, h⟩ := R.bind_eq_ok.1 h
      simp only [R.pure_eq, R.ok.injEq, Prod.mk.injEq] at h
      rw [← h.1]
      exact ⟨fun _ => by simp only; omega, ih _ h4⟩

theorem readFile_sized {file : List Byte} {number : Nat} {secs : List EwfImage.Section} (h : readFile file = .ok (number, secs)) : Sized secs 13 := by
  unfold readFile at h
  obtain ⟨k, -, h⟩ := R.bind_eq_ok.1 h
  obtain ⟨⟨s, f⟩, h2, h⟩ := R.bind_eq_ok.1 h
  simp only at h
  obtain ⟨_, -, h⟩ := R.bind_eq_ok.1 h
  simp only [R.pure_eq, R.ok.injEq, Prod.mk.injEq] at h
  rw [← h.2]
  exact sectionsLoop_sized 13 h2

/-- What sections of segments with numbers do, one after the other. -/
def Chain : List (Nat × Placed) → Info → Info → Prop
  | [], a, b => a = b
  | (k, p) :: rest, a, b => ∃ c, Effect k p a c ∧ Chain rest c b

theorem Chain.append {xs ys : List (Nat × Placed)} {a b c : Info} (h1 : Chain xs a b) (h2 : Chain ys b c) : Chain (xs ++ ys) a c := by
  induction xs generalizing a with
  | nil => cases h1; exact h2
  | cons x xs ih =>
    obtain ⟨d, h3, h4⟩ := h1
    exact ⟨d, h3, ih h4⟩

/-- The sections of a segment. -/
def placedIn (k : Nat) (file : List Byte) : List (Nat × Placed) := (sections file).map fun t => (k, ⟨file, t⟩)

/-- The sections of segments from a number on. -/
def placedFrom : Nat → List (List Byte) → List (Nat × Placed)
  | _, [] => []
  | k, file :: rest => placedIn k file ++ placedFrom (k + 1) rest

theorem placedFrom_append (k : Nat) (a b : List (List Byte)) : placedFrom k (a ++ b) = placedFrom k a ++ placedFrom (k + a.length) b := by
  induction a generalizing k with
  | nil => rfl
  | cons x a ih =>
    rw [List.cons_append, placedFrom, placedFrom, ih, List.append_assoc, List.length_cons]
    congr 3; omega

theorem placedFrom_snd (k : Nat) (segs : List (List Byte)) : (placedFrom k segs).map Prod.snd = placed segs := by
  induction segs generalizing k with
  | nil => rfl
  | cons file segs ih =>
    rw [placedFrom, List.map_append, ih, placed, placed, List.flatMap_cons, placedIn, List.map_map]
    rfl

theorem placedFrom_mem {k i : Nat} {segs : List (List Byte)} (h : i < segs.length) {s : Spec.Ewf.Section} (hs : s ∈ sections segs[i]) :
    (k + i, (⟨segs[i], s⟩ : Placed)) ∈ placedFrom k segs := by
  induction segs generalizing k i with
  | nil => exact absurd h (by simp)
  | cons file segs ih =>
    rw [placedFrom, List.mem_append]
    cases i with
    | zero => exact Or.inl (List.mem_map.2 ⟨s, hs, rfl⟩)
    | succ i =>
      refine Or.inr ?_
      have := ih (k := k + 1) (by simpa using h) hs
      rw [show k + (i + 1) = k + 1 + i by omega]
      exact this

theorem forall2_imp {α β : Type} {r s : α → β → Prop} (hrs : ∀ a b, r a b → s a b) {l : List α} {m : List β} (h : List.Forall₂ r l m) :
    List.Forall₂ s l m := by
  induction h with
  | nil => exact .nil
  | cons h _ ih => exact .cons (hrs _ _ h) ih

theorem runSections_chain {segment : Nat} {file : List Byte} (secs : List EwfImage.Section) {o : Nat} {sectors : Option Nat} {st st' : State}
    {a c : Info} {ts : List Spec.Ewf.Section} (hm : Matches file secs o ts) (hz : Sized secs o)
    (hok : runSections segment file secs o sectors st a = .ok (st', c)) :
    Chain (ts.map fun t => (segment, ⟨file, t⟩)) a c ∧ EwfImage.runSections nothing segment file secs o sectors st = .ok st' := by
  induction secs generalizing o sectors st a ts with
  | nil =>
    cases ts with
    | cons t ts => exact absurd hm id
    | nil =>
      simp only [runSections, R.ok.injEq, Prod.mk.injEq] at hok
      obtain ⟨rfl, rfl⟩ := hok
      exact ⟨rfl, rfl⟩
  | cons s secs ih =>
    cases ts with
    | nil => exact absurd hm id
    | cons t ts =>
      obtain ⟨rfl, m2, m3, m4, m5, m6⟩ := hm
      unfold runSections at hok
      obtain ⟨⟨st1, sec1⟩, h1, hok⟩ := R.bind_eq_ok.1 hok
      simp only at hok
      obtain ⟨i1, h2, hok⟩ := R.bind_eq_ok.1 hok
      obtain ⟨o1, h3, hok⟩ := R.bind_eq_ok.1 hok
      have h3' := h3
      obtain ⟨-, rfl⟩ := addU_eq_ok.1 h3
      obtain ⟨g1, g2⟩ := ih m6 hz.2 hok
      refine ⟨⟨i1, infoStep_ok m2 (fun hn => by rw [m3]; exact hz.1 hn) h2, g1⟩, ?_⟩
      unfold EwfImage.runSections
      rw [h1, R.ok_bind]
      simp only
      rw [h3', R.ok_bind]
      exact g2

theorem readSegment_chain {k : Nat} {file : List Byte} {st st' : State} {a c : Info} {cache cache' : Files}
    (hok : readSegment k file st a cache = .ok (st', c, cache')) :
    Chain (placedIn k file) a c ∧ EwfImage.readSegment nothing k file st cache = .ok (st', cache') := by
  unfold readSegment at hok
  obtain ⟨⟨number, secs⟩, h1, hok⟩ := R.bind_eq_ok.1 hok
  simp only at hok
  obtain ⟨_, hnum, hok⟩ := R.bind_eq_ok.1 hok
  obtain ⟨⟨s1, i1⟩, h2, hok⟩ := R.bind_eq_ok.1 hok
  simp only at hok
  obtain ⟨c1, h3, hok⟩ := R.bind_eq_ok.1 hok
  simp only [R.pure_eq, R.ok.injEq, Prod.mk.injEq] at hok
  obtain ⟨rfl, rfl, rfl⟩ := hok
  obtain ⟨g1, g2⟩ := runSections_chain secs (readFile_ok h1) (readFile_sized h1) h2
  refine ⟨g1, ?_⟩
  unfold EwfImage.readSegment
  rw [h1, R.ok_bind]
  simp only
  rw [hnum, R.ok_bind, g2, R.ok_bind, h3, R.ok_bind, R.pure_eq]

/-- The image that is opened is the one without the other sections. -/
theorem segmentsLoop_state {files : Nat → Option (List Byte)} {fuel k : Nat} {st st' : State} {a c : Info} {cache cache' : Files}
    (hok : segmentsLoop files fuel k st a cache = .ok (st', c, cache')) : EwfImage.segmentsLoop nothing files fuel k st cache = .ok (st', cache') := by
  induction fuel generalizing k st a cache with
  | zero => cases hok
  | succ fuel ih =>
    unfold segmentsLoop at hok
    unfold EwfImage.segmentsLoop
    by_cases hl : st.last
    · rw [if_pos hl] at hok ⊢
      simp only [R.ok.injEq, Prod.mk.injEq] at hok
      obtain ⟨rfl, -, rfl⟩ := hok
      rfl
    · rw [if_neg hl] at hok ⊢
      cases hf : files k with
      | none => rw [hf] at hok; cases hok
      | some file =>
        rw [hf] at hok
        simp only at hok ⊢
        obtain ⟨⟨s1, i1, c1⟩, h1, hok⟩ := R.bind_eq_ok.1 hok
        simp only at hok
        obtain ⟨k1, h2, hok⟩ := R.bind_eq_ok.1 hok
        rw [(readSegment_chain h1).2, R.ok_bind]
        simp only
        rw [h2, R.ok_bind]
        exact ih hok

theorem openImage_state {files : Nat → Option (List Byte)} {st : State} {a : Info} {cache : Files} (hok : openImage files = .ok (st, a, cache)) :
    EwfImage.openImage nothing files = .ok (st, cache) := segmentsLoop_state hok

theorem segmentsLoop_chain {files : Nat → Option (List Byte)} {segs : List (List Byte)} (hne : segs ≠ [])
    (hfiles : ∀ i, i < segs.length → files (i + 1) = segs[i]?)
    (hlast : ∀ i, (h : i < segs.length) → (IsLast segs[i] ↔ i + 1 = segs.length))
    {fuel k : Nat} {st st' : State} {a b c : Info} {cache cache' : Files} (hk : k ≤ segs.length)
    (hi : ∃ v cs, Inv v cs st) (hl : st.last = decide (k = segs.length)) (hc : Chain (placedFrom 1 (segs.take k)) a b)
    (hok : segmentsLoop files fuel (k + 1) st b cache = .ok (st', c, cache')) : Chain (placedFrom 1 segs) a c := by
  induction fuel generalizing k st b cache with
  | zero => cases hok
  | succ fuel ih =>
    unfold segmentsLoop at hok
    have hpos : 0 < segs.length := List.length_pos_iff.2 hne
    by_cases hlt : k < segs.length
    swap
    · have hke : k = segs.length := by omega
      rw [hl, if_pos (by simpa using hke)] at hok
      simp only [R.ok.injEq, Prod.mk.injEq] at hok
      obtain ⟨rfl, rfl, rfl⟩ := hok
      rw [hke, List.take_length] at hc
      exact hc
    · have hb : st.last = false := by rw [hl]; simp; omega
      have hf : segs[k]? = some segs[k] := List.getElem?_eq_getElem hlt
      rw [hb, if_neg (by simp), hfiles k hlt, hf] at hok
      simp only at hok
      obtain ⟨⟨s1, i1, c1⟩, h1, hok⟩ := R.bind_eq_ok.1 hok
      simp only at hok
      obtain ⟨_, h2, hok⟩ := R.bind_eq_ok.1 hok
      obtain ⟨-, rfl⟩ := addU_eq_ok.1 h2
      obtain ⟨g1, g2⟩ := readSegment_chain h1
      obtain ⟨v, cs, hi⟩ := hi
      obtain ⟨i1, i2, -, -, -⟩ := EwfImage.readSegment_ok hi g2
      have htake : segs.take (k + 1) = segs.take k ++ [segs[k]] := by
        rw [List.take_add_one, hf]; rfl
      refine ih (k := k + 1) hlt ⟨_, _, i1⟩ ?_ ?_ hok
      · rw [i2, hb, Bool.eq_iff_iff]
        rw [show lastFrom false (sections segs[k]) = true ↔ IsLast segs[k] from lastFrom_sections _ _ _, hlast k hlt, decide_eq_true_iff]
      · rw [htake, placedFrom_append]
        refine hc.append ?_
        rw [placedFrom, placedFrom, List.append_nil, List.length_take, Nat.min_eq_left (by omega), Nat.add_comm 1 k]
        exact g1

theorem openImage_chain {files : Nat → Option (List Byte)} {segs : List (List Byte)} (hne : segs ≠ [])
    (hfiles : ∀ i, i < segs.length → files (i + 1) = segs[i]?)
    (hlast : ∀ i, (h : i < segs.length) → (IsLast segs[i] ↔ i + 1 = segs.length)) {st : State} {c : Info} {cache : Files}
    (hok : openImage files = .ok (st, c, cache)) : Chain (placedFrom 1 segs) Info.new c := by
  have hpos : 0 < segs.length := List.length_pos_iff.2 hne
  refine segmentsLoop_chain hne hfiles hlast (k := 0) (Nat.zero_le _) ⟨⟨0, 0, 0, 0⟩, [], ?_⟩ ?_ rfl hok
  · exact ⟨by simp [Volume.chunkSize], by simp [Volume.mediaSize], by simp, fun h => absurd (by simp [Volume.chunkSize]) h, fun _ => by simp⟩
  · simp; omega

/-! ## What the sections say -/

theorem lastOr_cons {α : Type} (has : Placed → Bool) (tells : Placed → α) (d : α) (p : Placed) (ps : List Placed) :
    lastOr has tells d (p :: ps) = lastOr has tells (if has p then tells p else d) ps := by
  unfold lastOr
  rw [List.filter_cons]
  by_cases h : has p
  · rw [if_pos h, if_pos h, List.getLast?_cons]
    cases (ps.filter has).getLast? <;> rfl
  · rw [if_neg h, if_neg h]

/-- A field that only some sections set. -/
theorem chain_last {α : Type} (f : Info → α) (has : Placed → Bool) (tells : Placed → α)
    (step : ∀ k p a c, Effect k p a c → f c = if has p then tells p else f a) {xs : List (Nat × Placed)} {a c : Info} (h : Chain xs a c) :
    f c = lastOr has tells (f a) (xs.map Prod.snd) := by
  induction xs generalizing a with
  | nil => cases h; rfl
  | cons x xs ih =>
    obtain ⟨k, p⟩ := x
    obtain ⟨b, h1, h2⟩ := h
    rw [ih h2, List.map_cons, lastOr_cons, step k p a b h1]

theorem effect_md5 (k : Nat) (p : Placed) (a c : Info) (h : Effect k p a c) : c.md5 = if p.hasMd5 then p.bytes 0 16 else a.md5 := by
  cases h with
  | data h => rw [if_neg]; simp only [Placed.hasMd5, h]; decide
  | digest h => rw [if_pos]; simp only [Placed.hasMd5, h]; decide
  | volume h => rw [if_neg]; rcases h with h | h <;> simp only [Placed.hasMd5, h] <;> decide
  | other h => rw [if_neg]; rcases h with h | h <;> simp only [Placed.hasMd5, h] <;> decide
  | hash h => rw [if_pos]; simp only [Placed.hasMd5, h]; decide
  | header h => rw [if_neg]; simp only [Placed.hasMd5, h]; decide
  | header2 h => rw [if_neg]; simp only [Placed.hasMd5, h]; decide
  | table2 h => rw [if_neg]; simp only [Placed.hasMd5, h]; decide
  | nothing h => rw [if_neg]; simp only [List.mem_cons, not_or] at h; simp [Placed.hasMd5, h]

theorem effect_sha1 (k : Nat) (p : Placed) (a c : Info) (h : Effect k p a c) : c.sha1 = if p.hasSha1 then p.bytes 16 20 else a.sha1 := by
  cases h with
  | data h => rw [if_neg]; simp only [Placed.hasSha1, h]; decide
  | digest h => rw [if_pos]; simp only [Placed.hasSha1, h]; decide
  | volume h => rw [if_neg]; rcases h with h | h <;> simp only [Placed.hasSha1, h] <;> decide
  | other h => rw [if_neg]; rcases h with h | h <;> simp only [Placed.hasSha1, h] <;> decide
  | hash h => rw [if_neg]; simp only [Placed.hasSha1, h]; decide
  | header h => rw [if_neg]; simp only [Placed.hasSha1, h]; decide
  | header2 h => rw [if_neg]; simp only [Placed.hasSha1, h]; decide
  | table2 h => rw [if_neg]; simp only [Placed.hasSha1, h]; decide
  | nothing h => rw [if_neg]; simp only [List.mem_cons, not_or] at h; simp [Placed.hasSha1, h]

theorem isVolume_eq (p : Placed) : p.isVolume = true ↔ (p.sec.kind = disk ∨ p.sec.kind = volumeKind) ∧ p.sec.start + 1128 = p.sec.next := by
  unfold Placed.isVolume; rw [decide_eq_true_iff]

theorem effect_volume (k : Nat) (p : Placed) (a c : Info) (h : Effect k p a c) :
    (c.mediaType, c.errorGranularity, c.setIdentifier) =
      if p.isVolume then (EwfInfo.mediaType (leNat (p.bytes 0 1)), leNat (p.bytes 56 4), p.bytes 64 16)
      else (a.mediaType, a.errorGranularity, a.setIdentifier) := by
  cases h with
  | data h => rw [if_neg]; rw [isVolume_eq, h]; rintro ⟨h, -⟩; revert h; decide
  | digest h => rw [if_neg]; rw [isVolume_eq, h]; rintro ⟨h, -⟩; revert h; decide
  | volume h hv => rw [if_pos ((isVolume_eq p).2 ⟨h, hv⟩)]
  | other h hv => rw [if_neg fun e => hv ((isVolume_eq p).1 e).2]
  | hash h => rw [if_neg]; rw [isVolume_eq, h]; rintro ⟨h, -⟩; revert h; decide
  | header h => rw [if_neg]; rw [isVolume_eq, h]; rintro ⟨h, -⟩; revert h; decide
  | header2 h => rw [if_neg]; rw [isVolume_eq, h]; rintro ⟨h, -⟩; revert h; decide
  | table2 h => rw [if_neg]; rw [isVolume_eq, h]; rintro ⟨h, -⟩; revert h; decide
  | nothing h => rw [if_neg]; rw [isVolume_eq]; simp only [List.mem_cons, not_or] at h; simp [h]

theorem mediaType_eq (x : Nat) : EwfInfo.mediaType x = mediaTypeOf x := by
  unfold EwfInfo.mediaType mediaTypeOf
  split
  · next h => subst h; rfl
  split
  · next h => subst h; rfl
  split
  · next h => subst h; rfl
  split
  · next h => subst h; rfl
  split
  · next h => subst h; rfl
  split <;> first | rfl | omega

theorem lastOr_map {α β : Type} (g : α → β) (has : Placed → Bool) (tells : Placed → α) (d : α) (ps : List Placed) :
    g (lastOr has tells d ps) = lastOr has (fun p => g (tells p)) (g d) ps := by
  unfold lastOr
  cases (ps.filter has).getLast? <;> rfl

theorem chain_volume {xs : List (Nat × Placed)} {a c : Info} (h : Chain xs a c) :
    c.mediaType = lastOr Placed.isVolume (fun p => mediaTypeOf (leNat (p.bytes 0 1))) a.mediaType (xs.map Prod.snd) ∧
      c.errorGranularity = lastOr Placed.isVolume (fun p => leNat (p.bytes 56 4)) a.errorGranularity (xs.map Prod.snd) ∧
      c.setIdentifier = lastOr Placed.isVolume (fun p => p.bytes 64 16) a.setIdentifier (xs.map Prod.snd) := by
  have := chain_last (fun i => (i.mediaType, i.errorGranularity, i.setIdentifier)) Placed.isVolume _ effect_volume h
  have e1 := congrArg (fun t : MediaType × Nat × List Byte => t.1) this
  have e2 := congrArg (fun t : MediaType × Nat × List Byte => t.2.1) this
  have e3 := congrArg (fun t : MediaType × Nat × List Byte => t.2.2) this
  simp only at e1 e2 e3
  refine ⟨?_, ?_, ?_⟩
  · rw [e1, lastOr_map (fun t : MediaType × Nat × List Byte => t.1)]
    simp only [mediaType_eq]
  · rw [e2, lastOr_map (fun t : MediaType × Nat × List Byte => t.2.1)]
  · rw [e3, lastOr_map (fun t : MediaType × Nat × List Byte => t.2.2)]

/-- The checksums of a section. -/
def SoundAs (k : Nat) (p : Placed) : Prop :=
  (p.sec.kind = hashKind → p.Sound 32) ∧ (p.sec.kind = digestKind → p.Sound 76) ∧ (p.sec.kind = dataKind ∨ p.isVolume = true → p.Sound 1048) ∧
    (p.sec.kind = table2Kind → p.Sound 20 ∧ Checked p.file (p.sec.start + 100) (4 * leNat (p.bytes 0 4))) ∧ (p.isHeader = true → k = 1)

theorem isHeader_eq (p : Placed) : p.isHeader = true ↔ p.sec.kind = headerKind ∨ p.sec.kind = header2Kind := by
  unfold Placed.isHeader; rw [decide_eq_true_iff]

theorem effect_sound (k : Nat) (p : Placed) (a c : Info) (h : Effect k p a c) : SoundAs k p := by
  unfold SoundAs
  rw [isVolume_eq, isHeader_eq]
  cases h with
  | data h hs => rw [h]; exact ⟨fun e => absurd e (by decide), fun e => absurd e (by decide), fun _ => hs, fun e => absurd e (by decide), fun e => absurd e (by decide)⟩
  | digest h hs =>
    rw [h]
    exact ⟨fun e => absurd e (by decide), fun _ => hs, fun e => absurd (show digestKind = dataKind ∨ digestKind = disk ∨ digestKind = volumeKind by tauto) (by decide),
      fun e => absurd e (by decide), fun e => absurd e (by decide)⟩
  | volume h hv hs =>
    rcases h with h | h <;> rw [h] <;>
      exact ⟨fun e => absurd e (by decide), fun e => absurd e (by decide), fun _ => hs, fun e => absurd e (by decide), fun e => absurd e (by decide)⟩
  | other h hv =>
    rcases h with h | h <;> rw [h] <;>
      exact ⟨fun e => absurd e (by decide), fun e => absurd e (by decide), fun e => by
        rcases e with e | e
        · exact absurd e (by decide)
        · exact absurd e.2 hv, fun e => absurd e (by decide), fun e => absurd e (by decide)⟩
  | hash h hs =>
    rw [h]
    exact ⟨fun _ => hs, fun e => absurd e (by decide), fun e => absurd (show hashKind = dataKind ∨ hashKind = disk ∨ hashKind = volumeKind by tauto) (by decide),
      fun e => absurd e (by decide), fun e => absurd e (by decide)⟩
  | header h hk =>
    rw [h]
    exact ⟨fun e => absurd e (by decide), fun e => absurd e (by decide),
      fun e => absurd (show headerKind = dataKind ∨ headerKind = disk ∨ headerKind = volumeKind by tauto) (by decide), fun e => absurd e (by decide), fun _ => hk⟩
  | header2 h hk =>
    rw [h]
    exact ⟨fun e => absurd e (by decide), fun e => absurd e (by decide),
      fun e => absurd (show header2Kind = dataKind ∨ header2Kind = disk ∨ header2Kind = volumeKind by tauto) (by decide), fun e => absurd e (by decide), fun _ => hk⟩
  | table2 h hs he =>
    rw [h]
    exact ⟨fun e => absurd e (by decide), fun e => absurd e (by decide),
      fun e => absurd (show table2Kind = dataKind ∨ table2Kind = disk ∨ table2Kind = volumeKind by tauto) (by decide), fun _ => ⟨hs, he⟩, fun e => absurd e (by decide)⟩
  | nothing h =>
    simp only [List.mem_cons, not_or] at h
    obtain ⟨h1, h2, h3, h4, h5, h6, h7, h8, -⟩ := h
    refine ⟨fun e => absurd e h5, fun e => absurd e h2, fun e => ?_, fun e => absurd e h8, fun e => ?_⟩
    · rcases e with e | ⟨e | e, -⟩
      · exact absurd e h1
      · exact absurd e h3
      · exact absurd e h4
    · rcases e with e | e
      · exact absurd e h6
      · exact absurd e h7

theorem chain_sound {xs : List (Nat × Placed)} {a c : Info} (h : Chain xs a c) : ∀ x ∈ xs, SoundAs x.1 x.2 := by
  induction xs generalizing a with
  | nil => simp
  | cons x xs ih =>
    obtain ⟨k, p⟩ := x
    obtain ⟨b, h1, h2⟩ := h
    intro y hy
    rcases List.mem_cons.1 hy with rfl | hy
    · exact effect_sound _ _ _ _ h1
    · exact ih h2 y hy

/-- A section "data" has the set identifier of the volume before it. -/
theorem chain_data {xs : List (Nat × Placed)} {a c : Info} (h : Chain xs a c) (i : Nat) (p : Placed) (hp : (xs.map Prod.snd)[i]? = some p)
    (hk : p.sec.kind = dataKind) : p.bytes 64 16 = lastOr Placed.isVolume (fun p => p.bytes 64 16) a.setIdentifier ((xs.map Prod.snd).take i) := by
  induction xs generalizing a i with
  | nil => simp at hp
  | cons x xs ih =>
    obtain ⟨k, q⟩ := x
    obtain ⟨b, h1, h2⟩ := h
    cases i with
    | zero =>
      simp only [List.map_cons, List.getElem?_cons_zero, Option.some.injEq] at hp
      subst hp
      rw [List.take_zero]
      cases h1 with
      | data h hs hi => exact hi.symm
      | digest h => rw [hk] at h; exact absurd h (by decide)
      | volume h => rw [hk] at h; exact absurd h (by decide)
      | other h => rw [hk] at h; exact absurd h (by decide)
      | hash h => rw [hk] at h; exact absurd h (by decide)
      | header h => rw [hk] at h; exact absurd h (by decide)
      | header2 h => rw [hk] at h; exact absurd h (by decide)
      | table2 h => rw [hk] at h; exact absurd h (by decide)
      | nothing h => rw [hk] at h; exact absurd h (by decide)
    | succ i =>
      rw [List.map_cons, List.getElem?_cons_succ] at hp
      rw [ih h2 i hp, List.map_cons, List.take_succ_cons, lastOr_cons]
      have := congrArg (fun t : MediaType × Nat × List Byte => t.2.2) (effect_volume k q a b h1)
      simp only at this
      rw [this]
      by_cases hv : q.isVolume <;> simp [hv]

/-! ## Headers -/

/-- The data of a section has a header. -/
structure Holds (p : Placed) (h : Header) : Prop where
  kind : p.sec.kind = if h.coding = .bytes then headerKind else header2Kind
  wf : h.Wf
  buffer : Zlib.decompress p.data (List.replicate (p.data.length * 4) 0#8) = .ok (h.data ++ List.replicate (p.data.length * 4 - h.data.length) 0#8, h.data.length)
  dates : h.coding ≠ .bytes → ∀ c ∈ h.sheet.columns, c.1 = tag .acquisitionDate ∨ c.1 = tag .systemDate → c.2 ≠ []

/-- A header2 has no notes, under any tag. -/
def NoNotes (h : Header) : Prop := h.coding ≠ .bytes → ∀ c ∈ h.sheet.columns, c.1 ≠ [0x74] ∧ c.1 ≠ [0x77]

theorem header_bytes {p : Placed} {h : Header} (hp : Holds p h) (hc : h.coding = .bytes) {v v' : Values} (hok : readHeaderData p.data v = .ok v') (k : ValueType) :
    v'.get k = (v.get k).or (h.get k) := by
  unfold readHeaderData at hok
  rw [hp.buffer, R.ok_bind] at hok
  simp only at hok
  obtain ⟨coding, sheet⟩ := h
  simp only at hc
  subst hc
  have hu := hp.wf.units
  simp only [if_true] at hu
  obtain ⟨v1, h1, h2⟩ := readHeaderText_sheet hp.wf.sheet hu (List.replicate (p.data.length * 4 - (Header.data ⟨.bytes, sheet⟩).length) 0#8) v
  have e : Header.data ⟨.bytes, sheet⟩ = sheet.text.map (BitVec.ofNat 8) := rfl
  rw [e] at hok h1
  rw [h1, R.ok.injEq] at hok
  rw [← hok]
  exact h2 k

theorem coded_false (l : List Nat) : l.flatMap (fun x => [BitVec.ofNat 8 x, BitVec.ofNat 8 (x / 256)]) = coded false l := rfl
theorem coded_true (l : List Nat) : l.flatMap (fun x => [BitVec.ofNat 8 (x / 256), BitVec.ofNat 8 x]) = coded true l := rfl

theorem byteOrder_coded {h : Header} (hc : h.coding ≠ .bytes) (hw : h.Wf) (extra : List Byte) :
    ∃ big, byteOrder (h.data ++ extra) = .ok (big, coded big h.sheet.text ++ extra) := by
  obtain ⟨coding, sheet⟩ := h
  cases coding with
  | bytes => exact absurd rfl hc
  | bigEndian =>
    refine ⟨true, ?_⟩
    unfold byteOrder Header.data
    simp only
    rw [coded_true]
    simp only [List.cons_append, List.nil_append]
    rw [R.slice_ok (by omega) (by simp)]
    simp
  | littleEndian mark =>
    refine ⟨false, ?_⟩
    unfold byteOrder Header.data
    simp only
    rw [coded_false]
    cases mark with
    | true =>
      simp only [if_true, List.cons_append, List.nil_append]
      rw [R.slice_ok (by omega) (by simp)]
      simp
    | false =>
      simp only [Bool.false_eq_true, if_false, List.nil_append]
      obtain ⟨x, rest, hx, ht⟩ : ∃ x rest, (x = 0x31 ∨ x = 0x33) ∧ sheet.text = x :: rest := by
        unfold Sheet.text
        rcases hw.sheet.categories with h | h <;> simp only at h <;> rw [h]
        · exact ⟨0x31, _, Or.inl rfl, rfl⟩
        · exact ⟨0x33, _, Or.inr rfl, rfl⟩
      rw [ht, coded_cons, List.cons_append, List.cons_append]
      rw [R.slice_ok (by omega) (by simp)]
      rcases hx with rfl | rfl <;> simp

theorem header_utf16 {p : Placed} {h : Header} (hp : Holds p h) (hc : h.coding ≠ .bytes) {v v' : Values} (hok : readHeader2Data p.data v = .ok v')
    {k : ValueType} (hn : k = .notes → NoNotes h) : v'.get k = (v.get k).or (h.get k) := by
  unfold readHeader2Data at hok
  rw [hp.buffer, R.ok_bind] at hok
  simp only at hok
  obtain ⟨big, hb⟩ := byteOrder_coded hc hp.wf (List.replicate (p.data.length * 4 - h.data.length) 0#8)
  rw [hb, R.ok_bind] at hok
  have hu := hp.wf.units
  rw [if_neg hc] at hu
  exact readHeader2Text_sheet big hc hp.wf.sheet hu _ (hp.dates hc) (fun hk => hn hk hc) hok

theorem effect_values {k : Nat} {p : Placed} {a c : Info} (h : Effect k p a c) (hp : p.isHeader = false) : c.values = a.values := by
  cases h with
  | header h => rw [(isHeader_eq p).2 (Or.inl h)] at hp; cases hp
  | header2 h => rw [(isHeader_eq p).2 (Or.inr h)] at hp; cases hp
  | _ => rfl

theorem effect_header {n : Nat} {p : Placed} {a c : Info} (h : Effect n p a c) {hd : Header} (hp : Holds p hd) {k : ValueType}
    (hn : k = .notes → NoNotes hd) : c.values.get k = (a.values.get k).or (hd.get k) := by
  by_cases hc : hd.coding = .bytes
  · have hk := hp.kind
    rw [if_pos hc] at hk
    cases h with
    | header h _ v hv => exact header_bytes hp hc hv k
    | data h => rw [hk] at h; exact absurd h (by decide)
    | digest h => rw [hk] at h; exact absurd h (by decide)
    | volume h => rw [hk] at h; exact absurd h (by decide)
    | other h => rw [hk] at h; exact absurd h (by decide)
    | hash h => rw [hk] at h; exact absurd h (by decide)
    | header2 h => rw [hk] at h; exact absurd h (by decide)
    | table2 h => rw [hk] at h; exact absurd h (by decide)
    | nothing h => rw [hk] at h; exact absurd h (by decide)
  · have hk := hp.kind
    rw [if_neg hc] at hk
    cases h with
    | header2 h _ v hv => exact header_utf16 hp hc hv hn
    | data h => rw [hk] at h; exact absurd h (by decide)
    | digest h => rw [hk] at h; exact absurd h (by decide)
    | volume h => rw [hk] at h; exact absurd h (by decide)
    | other h => rw [hk] at h; exact absurd h (by decide)
    | hash h => rw [hk] at h; exact absurd h (by decide)
    | header h => rw [hk] at h; exact absurd h (by decide)
    | table2 h => rw [hk] at h; exact absurd h (by decide)
    | nothing h => rw [hk] at h; exact absurd h (by decide)

theorem chain_values {xs : List (Nat × Placed)} {a c : Info} (h : Chain xs a c) {headers : List Header}
    (hh : List.Forall₂ Holds ((xs.map Prod.snd).filter Placed.isHeader) headers) {k : ValueType} (hn : k = .notes → ∀ h ∈ headers, NoNotes h) :
    c.values.get k = (a.values.get k).or (valueOf headers k) := by
  induction xs generalizing a headers with
  | nil =>
    cases h
    cases hh
    simp [valueOf]
  | cons x xs ih =>
    obtain ⟨n, p⟩ := x
    obtain ⟨b, h1, h2⟩ := h
    rw [List.map_cons, List.filter_cons] at hh
    by_cases hp : p.isHeader = true
    · rw [if_pos hp] at hh
      cases hh with
      | @cons _ hd _ hds hq hh =>
      rw [ih h2 hh fun hk h hm => hn hk h (by simp [hm]), effect_header h1 hq fun hk => hn hk hd (by simp), Option.or_assoc]
      congr 1
      unfold valueOf
      rw [findSome_cons]
    · rw [if_neg hp] at hh
      rw [ih h2 hh hn, effect_values h1 (by simpa using hp)]

/-! ## Sections that are accepted -/

theorem read_ok {file : List Byte} {o n : Nat} (h : o + n ≤ file.length) : readExactAt file o n = .ok (bytesAt file o n) :=
  readExactAt_eq_ok.2 ⟨rfl, bytesAt_length h⟩

theorem data_length {p : Placed} (hs : p.sec.start + 76 ≤ p.sec.next) (hf : p.sec.next ≤ p.file.length) : p.data.length = p.sec.next - (p.sec.start + 76) :=
  bytesAt_length (by omega)

theorem accepts_header {p : Placed} (hs : p.sec.start + 76 ≤ p.sec.next) (hf : p.sec.next ≤ p.file.length) (hlen : p.file.length < 2 ^ 63)
    {info : Info} {segment : Nat} {h : Header} (hp : Holds p h) (h1 : 2 ≤ p.data.length) (h2 : p.data.length ≤ 16777216) (h3 : segment = 1)
    (hd : h.coding ≠ .bytes → ∀ c ∈ h.sheet.columns, c.1 = tag .acquisitionDate ∨ c.1 = tag .systemDate → ∃ n, decimal c.2 = some n ∧ n < 2 ^ 31) :
    ∃ info', infoStep segment p.file p.sec.start ⟨p.sec.kind, p.sec.next, p.sec.next - p.sec.start⟩ info = .ok info' := by
  have hl := data_length hs hf
  have hr : readExactAt p.file (p.sec.start + 76) (p.sec.next - p.sec.start - 76) = .ok p.data := by
    rw [Nat.sub_sub]
    exact read_ok (by omega)
  have hk := hp.kind
  unfold infoStep
  by_cases hc : h.coding = .bytes
  · rw [if_pos hc] at hk
    simp only [hk]
    rw [if_neg (by decide), if_neg (by decide), if_neg (by decide), if_neg (by decide), if_neg (by decide), if_pos (by decide), R.require_true h3, R.ok_bind,
      R.subU_ok (by omega), R.ok_bind, R.addU_ok (by omega), R.ok_bind]
    unfold readHeader
    rw [R.require_true (by omega), R.ok_bind, hr, R.ok_bind]
    unfold readHeaderData
    rw [hp.buffer, R.ok_bind]
    simp only
    obtain ⟨coding, sheet⟩ := h
    simp only at hc
    subst hc
    have hu := hp.wf.units
    simp only [if_true] at hu
    obtain ⟨v1, h1, -⟩ := readHeaderText_sheet hp.wf.sheet hu (List.replicate (p.data.length * 4 - (Header.data ⟨.bytes, sheet⟩).length) 0#8) info.values
    have e : Header.data ⟨.bytes, sheet⟩ = sheet.text.map (BitVec.ofNat 8) := rfl
    rw [e] at h1 ⊢
    rw [h1]
    exact ⟨_, rfl⟩
  · rw [if_neg hc] at hk
    simp only [hk]
    rw [if_neg (by decide), if_neg (by decide), if_neg (by decide), if_neg (by decide), if_neg (by decide), if_neg (by decide), if_pos (by decide), R.require_true h3,
      R.ok_bind, R.subU_ok (by omega), R.ok_bind, R.addU_ok (by omega), R.ok_bind]
    unfold readHeader2
    rw [R.require_true (by omega), R.ok_bind, hr, R.ok_bind]
    unfold readHeader2Data
    rw [hp.buffer, R.ok_bind]
    simp only
    obtain ⟨big, hb⟩ := byteOrder_coded hc hp.wf (List.replicate (p.data.length * 4 - h.data.length) 0#8)
    rw [hb, R.ok_bind]
    simp only
    have hu := hp.wf.units
    rw [if_neg hc] at hu
    obtain ⟨v1, h1⟩ := addUtf16s_ok h.sheet.columns info.values (hd hc)
    rw [readHeader2Text_eq big hp.wf.sheet hu, h1]
    exact ⟨_, rfl⟩

theorem readHash_runs {file : List Byte} {o : Nat} (h : o + 36 ≤ file.length) (hc : Checked file o 32) : readHash file o = .ok (bytesAt file o 16) := by
  unfold readHash
  have hl : (bytesAt file o 36).length = 36 := bytesAt_length h
  unfold Checked at hc
  rw [read_ok h, R.ok_bind, u32le_field (by omega), R.ok_bind, slice_bytesAt' (n := 32) rfl (by omega), R.ok_bind, checksum_eq, R.ok_bind, field_bytesAt (by omega),
    bytesAt_bytesAt (by omega), Nat.add_zero o, R.require_true hc, R.ok_bind, slice_bytesAt' (n := 16) rfl (by omega), bytesAt_bytesAt (by omega), Nat.add_zero]

theorem readDigest_runs {file : List Byte} {o : Nat} (h : o + 80 ≤ file.length) (hc : Checked file o 76) : ∃ x, readDigest file o = .ok x := by
  unfold readDigest
  have hl : (bytesAt file o 80).length = 80 := bytesAt_length h
  unfold Checked at hc
  rw [read_ok h, R.ok_bind, u32le_field (by omega), R.ok_bind, slice_bytesAt' (n := 76) rfl (by omega), R.ok_bind, checksum_eq, R.ok_bind, field_bytesAt (by omega),
    bytesAt_bytesAt (by omega), Nat.add_zero o, R.require_true hc, R.ok_bind, slice_bytesAt' (n := 16) rfl (by omega), R.ok_bind,
    slice_bytesAt' (n := 20) rfl (by omega), R.ok_bind]
  exact ⟨_, rfl⟩

theorem readE01_runs {file : List Byte} {o : Nat} (h : o + 1052 ≤ file.length) (hc : Checked file o 1048) :
    ∃ x y, readE01 file o = .ok (x, y, bytesAt file (o + 64) 16) := by
  unfold readE01
  have hl : (bytesAt file o 1052).length = 1052 := bytesAt_length h
  unfold Checked at hc
  rw [read_ok h, R.ok_bind, u32le_field (by omega), R.ok_bind, slice_bytesAt' (n := 1048) rfl (by omega), R.ok_bind, checksum_eq, R.ok_bind,
    field_bytesAt (by omega), bytesAt_bytesAt (by omega), Nat.add_zero o, R.require_true hc, R.ok_bind, R.get_ok (by omega), R.ok_bind, u32le_field (by omega), R.ok_bind,
    slice_bytesAt' (n := 16) rfl (by omega), bytesAt_bytesAt (by omega), R.ok_bind]
  exact ⟨_, _, rfl⟩

theorem accepts_hash {p : Placed} (hlen : p.file.length < 2 ^ 63) {info : Info} {segment : Nat} (hk : p.sec.kind = hashKind)
    (hf : p.sec.start + 112 ≤ p.file.length) (hc : p.Sound 32) :
    ∃ info', infoStep segment p.file p.sec.start ⟨p.sec.kind, p.sec.next, p.sec.next - p.sec.start⟩ info = .ok info' := by
  unfold infoStep
  simp only [hk]
  rw [if_neg (by decide), if_neg (by decide), if_neg (by decide), if_neg (by decide), if_pos (by decide), R.addU_ok (by omega), R.ok_bind, readHash_runs (by omega) hc]
  exact ⟨_, rfl⟩

theorem accepts_digest {p : Placed} (hlen : p.file.length < 2 ^ 63) {info : Info} {segment : Nat} (hk : p.sec.kind = digestKind)
    (hf : p.sec.start + 156 ≤ p.file.length) (hc : p.Sound 76) :
    ∃ info', infoStep segment p.file p.sec.start ⟨p.sec.kind, p.sec.next, p.sec.next - p.sec.start⟩ info = .ok info' := by
  unfold infoStep
  simp only [hk]
  obtain ⟨x, hx⟩ := readDigest_runs (o := p.sec.start + 76) (by omega) hc
  rw [if_neg (by decide), if_pos (by decide), R.addU_ok (by omega), R.ok_bind, hx]
  exact ⟨_, rfl⟩

theorem accepts_volume {p : Placed} (hf : p.sec.next ≤ p.file.length) (hlen : p.file.length < 2 ^ 63) {info : Info}
    {segment : Nat} (hk : p.isVolume = true) (hc : p.Sound 1048) :
    ∃ info', infoStep segment p.file p.sec.start ⟨p.sec.kind, p.sec.next, p.sec.next - p.sec.start⟩ info = .ok info' := by
  obtain ⟨hk, hn⟩ := (isVolume_eq p).1 hk
  unfold infoStep
  obtain ⟨x, y, hx⟩ := readE01_runs (o := p.sec.start + 76) (by omega) hc
  have hv : volumeInfo p.file (p.sec.start + 76) (p.sec.next - p.sec.start) info = .ok { info with mediaType := EwfInfo.mediaType x, errorGranularity := y, setIdentifier := bytesAt p.file (p.sec.start + 76 + 64) 16 } := by
    unfold volumeInfo
    rw [if_pos (by omega), hx]
    rfl
  rcases hk with hk | hk <;> simp only [hk] <;>
    rw [if_neg (by decide), if_neg (by decide), if_pos (by decide), R.addU_ok (by omega), R.ok_bind, hv] <;> exact ⟨_, rfl⟩

theorem accepts_data {p : Placed} (hlen : p.file.length < 2 ^ 63) {info : Info} {segment : Nat} (hk : p.sec.kind = dataKind)
    (hf : p.sec.start + 1128 ≤ p.file.length) (hc : p.Sound 1048) (hi : p.bytes 64 16 = info.setIdentifier) :
    ∃ info', infoStep segment p.file p.sec.start ⟨p.sec.kind, p.sec.next, p.sec.next - p.sec.start⟩ info = .ok info' := by
  unfold infoStep
  simp only [hk]
  obtain ⟨x, y, hx⟩ := readE01_runs (o := p.sec.start + 76) (by omega) hc
  rw [if_pos (by decide), R.addU_ok (by omega), R.ok_bind, hx, R.ok_bind]
  simp only
  rw [R.require_true (show info.setIdentifier = bytesAt p.file (p.sec.start + 76 + 64) 16 from hi.symm)]
  exact ⟨_, rfl⟩

theorem readEntries_ok' {data : List Byte} (n o : Nat) (h : o + n * 4 ≤ data.length) : ∃ es, readEntries data n o = .ok es := by
  induction n generalizing o with
  | zero => exact ⟨_, rfl⟩
  | succ n ih =>
    obtain ⟨es, he⟩ := ih (o + 4) (by omega)
    unfold readEntries
    rw [slice_bytesAt (by omega), R.ok_bind, u32le_field (by rw [bytesAt_length (by omega)]), R.ok_bind, he]
    exact ⟨_, rfl⟩

theorem accepts_table2 {p : Placed} (hs : p.sec.start + 76 ≤ p.sec.next) (hf : p.sec.next ≤ p.file.length) (hlen : p.file.length < 2 ^ 63) {info : Info}
    {segment : Nat} (hk : p.sec.kind = table2Kind) (hz : p.data.length ≤ 16777216) (hn : 28 + 4 * leNat (p.bytes 0 4) ≤ p.data.length) (hc : p.Sound 20)
    (he : Checked p.file (p.sec.start + 100) (4 * leNat (p.bytes 0 4))) :
    ∃ info', infoStep segment p.file p.sec.start ⟨p.sec.kind, p.sec.next, p.sec.next - p.sec.start⟩ info = .ok info' := by
  unfold infoStep
  simp only [hk]
  have hl := data_length hs hf
  have hN : leNat (p.bytes 0 4) = field p.file (p.sec.start + 76) 4 := rfl
  rw [hN] at hn he
  generalize hNN : field p.file (p.sec.start + 76) 4 = N at *
  have hr : readExactAt p.file (p.sec.start + 76) (p.sec.next - p.sec.start - 76) = .ok (bytesAt p.file (p.sec.start + 76) (p.sec.next - p.sec.start - 76)) :=
    read_ok (by omega)
  have hd : (bytesAt p.file (p.sec.start + 76) (p.sec.next - p.sec.start - 76)).length = p.sec.next - p.sec.start - 76 := bytesAt_length (by omega)
  have hc : field p.file (p.sec.start + 76 + 20) 4 = adler32 1 ((bytesAt p.file (p.sec.start + 76) 20).map BitVec.toNat) := hc
  have he : field p.file (p.sec.start + 100 + 4 * N) 4 = adler32 1 ((bytesAt p.file (p.sec.start + 100) (4 * N)).map BitVec.toNat) := he
  obtain ⟨es, hes⟩ := readEntries_ok' (data := bytesAt p.file (p.sec.start + 76) (p.sec.next - p.sec.start - 76)) N 24 (by omega)
  rw [if_neg (by decide), if_neg (by decide), if_neg (by decide), if_neg (by decide), if_neg (by decide), if_neg (by decide), if_neg (by decide), if_pos (by decide),
    R.subU_ok (by omega), R.ok_bind, R.addU_ok (by omega), R.ok_bind]
  unfold readTable
  rw [R.require_true (by omega), R.ok_bind, hr, R.ok_bind, u32le_field (by omega), R.ok_bind, slice_bytesAt' (n := 20) rfl (by omega), R.ok_bind, checksum_eq, R.ok_bind,
    field_bytesAt (by omega), bytesAt_bytesAt (by omega), Nat.add_zero (p.sec.start + 76), R.require_true hc, R.ok_bind, u32le_field (by omega), R.ok_bind,
    u64le_field (by omega), R.ok_bind, field_bytesAt (by omega), Nat.add_zero (p.sec.start + 76), hNN, slice_bytesAt (by omega), R.ok_bind,
    u32le_field (by rw [bytesAt_length (by omega)]), R.ok_bind, slice_bytesAt (by omega), R.ok_bind, checksum_eq, R.ok_bind, field_bytesAt (by omega),
    field_bytesAt (by omega), bytesAt_bytesAt (by omega), R.require_true (by rw [Nat.mul_comm N 4, ← he]; congr 1; omega), R.ok_bind, hes]
  exact ⟨_, rfl⟩

end Keramics.EwfInfo
