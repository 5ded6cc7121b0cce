import Verif.Lemmas.Volumes
import Verif.Props.Streams
import Verif.Lemmas.BlockTree

/-!
# C44, C45, C46: GPT, MBR and APM volume systems
-/

namespace Keramics.Props
open Keramics.Spec

/-! ## C44 -/

/-- C44: an accepted table has a valid header in sector 1 (for the sector size used) and passes the header and the entry
checksum, where a stored checksum of 0 is not compared. The partitions are exactly the entries in use, in order, and
each has a type that is not nil and starts in the area and not after its end. -/
theorem C44_accepted_partial (volume : List Byte) (hv : volume.length < 2 ^ 64) (set : Nat) (s : Gpt.System)
    (h : Gpt.readTable volume set = .ok s) :
    (set ≠ 0 → s.bps = set) ∧ (set = 0 → s.bps = 512 ∨ s.bps = 4096) ∧
    Spec.Gpt.HeaderOk true (Spec.Gpt.header volume s.bps) ∧ Spec.Gpt.EntriesOk true volume s.bps ∧
    field (Spec.Gpt.header volume s.bps) 84 4 = 128 ∧
    List.Forall₂ (fun e p => e.index = p.1 ∧ Uuid.fromLeBytes p.2.1 = .ok e.typeId ∧ Uuid.fromLeBytes p.2.2.1 = .ok e.id ∧
      e.start = p.2.2.2.1 ∧ e.end_ = p.2.2.2.2) s.entries (Spec.Gpt.partitions volume s.bps) ∧
    ∀ e ∈ s.entries, field (Spec.Gpt.header volume s.bps) 40 8 ≤ e.start ∧ e.start ≤ e.end_ := by
  unfold Gpt.readTable at h
  obtain ⟨⟨bps, hd⟩, hp, h⟩ := R.bind_eq_ok.1 h
  obtain ⟨bo, _, h⟩ := R.bind_eq_ok.1 h
  obtain ⟨_, _, h⟩ := R.bind_eq_ok.1 h
  obtain ⟨_, h1, h⟩ := R.bind_eq_ok.1 h
  obtain ⟨_, h2, h⟩ := R.bind_eq_ok.1 h
  obtain ⟨off, h3, h⟩ := R.bind_eq_ok.1 h
  obtain ⟨r, h4, h⟩ := R.bind_eq_ok.1 h
  rw [Gpt.crc_ok, R.ok_bind] at h
  obtain ⟨_, h5, h⟩ := R.bind_eq_ok.1 h
  have h1 := R.require_eq_ok.1 h1
  have h5 := R.require_eq_ok.1 h5
  simp only at h1 h3 h4 h5 h
  cases h
  have hprim : (set ≠ 0 → bps = set) ∧ (set = 0 → bps = 512 ∨ bps = 4096) ∧ Spec.Gpt.HeaderOk true (Spec.Gpt.header volume bps) ∧
      Gpt.Fields (Spec.Gpt.header volume bps) hd := by
    unfold Gpt.primary at hp
    split at hp
    · rename_i hs
      obtain ⟨x, hx, he⟩ := R.bind_eq_ok.1 hp
      cases he
      obtain ⟨g1, g2⟩ := (Gpt.readHeaderAt_good volume set).of_ok hx
      exact ⟨fun _ => rfl, fun k => absurd k hs, g1, g2⟩
    · rename_i hs
      refine ⟨fun k => absurd k hs, ?_⟩
      unfold Gpt.detect at hp
      split at hp
      · rename_i x hx
        cases hp
        obtain ⟨g1, g2⟩ := (Gpt.readHeaderAt_good volume 512).of_ok hx
        exact ⟨fun _ => Or.inl rfl, g1, g2⟩
      · unfold Gpt.detect at hp
        split at hp
        · rename_i x hx
          cases hp
          obtain ⟨g1, g2⟩ := (Gpt.readHeaderAt_good volume 4096).of_ok hx
          exact ⟨fun _ => Or.inr rfl, g1, g2⟩
        · cases hp
        · cases hp
      · cases hp
  obtain ⟨p1, p2, p3, f1, f2, f3, f4, f5, f6, f7, f8⟩ := hprim
  have h3 : off = field (Spec.Gpt.header volume bps) 72 8 * bps := by
    have := (BlockTree.mulU_eq_ok.1 h3).2
    rw [this, f4]
  obtain ⟨g1, -, es, g2, g3, g4⟩ := (Gpt.entriesLoop_good hv hd.areaStart hd.number 0 off [] []).of_ok h4
  rw [List.nil_append] at g1 g2
  refine ⟨p1, p2, p3, ?_, f6 ▸ h1, ?_, ?_⟩
  · unfold Spec.Gpt.EntriesOk Spec.Gpt.number
    rw [← f7, ← f5]
    have : ((List.range hd.number).flatMap (Spec.Gpt.entry volume bps)) = r.1.flatten := by
      rw [g1, h3, List.flatMap_def]; rfl
    rw [this]
    by_cases hz : hd.checksum = 0
    · exact Or.inr ⟨rfl, hz⟩
    · exact Or.inl (Classical.byContradiction fun k => h5 ⟨hz, k⟩)
  · show List.Forall₂ _ r.2 _
    rw [g2]
    unfold Spec.Gpt.partitions Spec.Gpt.number Spec.Gpt.entry
    rw [← f5, ← h3]
    simp only [Nat.zero_add] at g4
    exact g4
  · show ∀ e ∈ r.2, _
    rw [g2, ← f2]; exact g3

/-- C44: partition `i` of an accepted table is the window from its first to the end of its last sector: every sequence of
reads and seeks sees exactly those bytes. -/
theorem C44_window (volume : List Byte) (hv : volume.length < 2 ^ 64) (under : Nat → Nat → Nat → List Byte) (hu : LegalUnder volume under)
    (set : Nat) (s : Gpt.System) (h : Gpt.readTable volume set = .ok s) (i index : Nat) (type id : List Byte) (start end_ : Nat)
    (hp : (Spec.Gpt.partitions volume s.bps)[i]? = some (index, type, id, start, end_)) (hbps : 0 < s.bps)
    (hfit : (end_ + 1) * s.bps < 2 ^ 63)
    (ops : List StreamOp) (hf : (end_ + 1 - start) * s.bps + seekBudget ops < 2 ^ 63) :
    ∃ w tr, Gpt.getPartition s i = .ok w ∧ Stream.run (Window.reader under w) ⟨0, 0⟩ ops = .ok tr ∧ tr.map Prod.fst = ops ∧
      Trace false (bytesAt volume (start * s.bps) ((end_ + 1 - start) * s.bps)) ((end_ + 1 - start) * s.bps) 0 tr := by
  obtain ⟨-, -, -, -, -, h6, h7⟩ := C44_accepted_partial volume hv set s h
  obtain ⟨hi, hpi⟩ := List.getElem?_eq_some_iff.1 hp
  have hlen := h6.length_eq
  have he : s.entries[i]? = some (s.entries[i]'(by omega)) := List.getElem?_eq_getElem (by omega)
  have hsame := (List.forall₂_iff_get.1 h6).2 i (by omega) hi
  simp only [List.get_eq_getElem, hpi] at hsame
  have hle := h7 (s.entries[i]'(by omega)) (List.getElem_mem _)
  obtain ⟨-, -, -, s1, s2⟩ := hsame
  rw [s1, s2] at hle
  have hm1 : start * s.bps ≤ (end_ + 1) * s.bps := Nat.mul_le_mul_right _ (by omega)
  have hm2 : (end_ + 1 - start) * s.bps = (end_ + 1) * s.bps - start * s.bps := Nat.sub_mul _ _ _
  have hend : end_ + 1 ≤ (end_ + 1) * s.bps := Nat.le_mul_of_pos_right _ hbps
  obtain ⟨tr, t1, t2, t3⟩ := C09_window_stream volume under hu (start * s.bps) ((end_ + 1 - start) * s.bps) (by omega) ops hf
  refine ⟨⟨start * s.bps, (end_ + 1 - start) * s.bps⟩, tr, ?_, t1, t2, t3⟩
  unfold Gpt.getPartition
  rw [he]
  simp only
  rw [s1, s2, R.mulU_ok (by omega), R.ok_bind, R.subU_ok (by omega), R.ok_bind, R.addU_ok (by omega), R.ok_bind,
    show end_ - start + 1 = end_ + 1 - start by omega, R.mulU_ok (by omega), R.ok_bind]
  rfl

/-- C44: every valid table is accepted: valid header, a valid backup header where the header says or in the last sector,
entries of 128 bytes inside of the volume with a matching checksum, partitions in the area. -/
theorem C44_wellformed (volume : List Byte) (hv : volume.length < 2 ^ 64) (bps set : Nat)
    (hset : set = bps ∧ bps ≠ 0 ∨ set = 0 ∧ bps = 512 ∨ set = 0 ∧ bps = 4096 ∧ ¬ Spec.Gpt.HeaderOk true (Spec.Gpt.header volume 512))
    (hh : Spec.Gpt.HeaderOk true (Spec.Gpt.header volume bps)) (hb : field (Spec.Gpt.header volume bps) 32 8 * bps < 2 ^ 64)
    (hbackup : field (Spec.Gpt.header volume bps) 32 8 * bps = 0 ∨
      Spec.Gpt.HeaderOk true (bytesAt volume (field (Spec.Gpt.header volume bps) 32 8 * bps) 92) ∨
      bps ≤ volume.length ∧ Spec.Gpt.HeaderOk true (bytesAt volume (volume.length - bps) 92))
    (hsize : field (Spec.Gpt.header volume bps) 84 4 = 128) (hnum : Spec.Gpt.number volume bps ≤ bps / 4)
    (hin : field (Spec.Gpt.header volume bps) 72 8 * bps + 128 * Spec.Gpt.number volume bps ≤ volume.length)
    (hparts : ∀ i, i < Spec.Gpt.number volume bps → Spec.Gpt.used (Spec.Gpt.entry volume bps i) = true →
      field (Spec.Gpt.header volume bps) 40 8 ≤ field (Spec.Gpt.entry volume bps i) 32 8 ∧
      field (Spec.Gpt.entry volume bps i) 32 8 ≤ field (Spec.Gpt.entry volume bps i) 40 8)
    (hcrc : Spec.Gpt.EntriesOk true volume bps) :
    ∃ s, Gpt.readTable volume set = .ok s ∧ s.bps = bps := by
  have hprim : ∃ hd, Gpt.primary volume set = .ok (bps, hd) ∧ Gpt.Fields (Spec.Gpt.header volume bps) hd := by
    obtain ⟨hd, e1, -, e2⟩ := (Gpt.readHeaderAt_good volume bps).exists_ok hh
    refine ⟨hd, ?_, e2⟩
    unfold Gpt.primary
    rcases hset with ⟨rfl, h⟩ | ⟨rfl, rfl⟩ | ⟨rfl, rfl, hn⟩
    · rw [if_pos h, e1]; rfl
    · rw [if_neg (by simp), Gpt.detect, e1]
    · rw [if_neg (by simp), Gpt.detect]
      have hg := Gpt.readHeaderAt_good volume 512
      cases hx : Gpt.readHeaderAt volume 512 with
      | ok x => exact absurd (hg.of_ok hx).1 hn
      | panic => exact absurd hx hg.ne_panic
      | err => simp only; rw [Gpt.detect, e1]
  obtain ⟨hd, e1, f1, f2, f3, f4, f5, f6, f7, f8⟩ := hprim
  have hbk : Gpt.backup volume bps (hd.backup * bps) = .ok () := by
    unfold Gpt.backup
    rw [f1]
    split
    · rename_i hpos
      have hg := Gpt.readHeaderAt_good volume (field (Spec.Gpt.header volume bps) 32 8 * bps)
      rcases hbackup with h | h | ⟨h, h'⟩
      · omega
      · obtain ⟨x, hx, -⟩ := hg.exists_ok h
        rw [hx]
      · cases hx : Gpt.readHeaderAt volume (field (Spec.Gpt.header volume bps) 32 8 * bps) with
        | ok x => rfl
        | panic => exact absurd hx hg.ne_panic
        | err =>
          simp only
          obtain ⟨y, hy, -⟩ := (Gpt.readHeaderAt_good volume (volume.length - bps)).exists_ok h'
          unfold Gpt.lastSector
          rw [if_pos h, hy]; rfl
    · rfl
  have hnum' : hd.number = Spec.Gpt.number volume bps := f5
  have hgood := Gpt.entriesLoop_good hv hd.areaStart hd.number 0 (hd.entriesStart * bps) [] []
  obtain ⟨r, hr, g1, -⟩ := hgood.exists_ok (by
    intro i hi
    rw [f4]
    refine ⟨by omega, fun hu => ?_⟩
    have := hparts i (by omega) hu
    rw [f2]; exact this)
  have m1 : hd.backup * bps < 2 ^ 64 := by rw [f1]; exact hb
  have m2 : hd.entriesStart * bps < 2 ^ 64 := by rw [f4]; omega
  have m3 : hd.entrySize = 128 := by rw [f6]; exact hsize
  have m4 : ¬ 32 * bps / hd.entrySize < hd.number := by rw [m3, hnum']; omega
  refine ⟨⟨bps, if Uuid.isNil hd.disk then ⟨0, 0, 0, 0, 0⟩ else hd.disk, r.2⟩, ?_, rfl⟩
  unfold Gpt.readTable
  rw [e1, R.ok_bind]
  simp only
  rw [R.mulU_ok m1, R.ok_bind, hbk, R.ok_bind, R.require_true m3, R.ok_bind, R.require_true m4, R.ok_bind,
    R.mulU_ok m2, R.ok_bind, hr, R.ok_bind, Gpt.crc_ok, R.ok_bind, R.require_true, R.ok_bind]
  · rfl
  · have : r.1.flatten = (List.range (Spec.Gpt.number volume bps)).flatMap (Spec.Gpt.entry volume bps) := by
      rw [g1, List.nil_append, List.flatMap_def, hnum', f4]; rfl
    rw [this, f7]
    rcases hcrc with h | ⟨-, h⟩
    · rintro ⟨-, k⟩; exact k h
    · rintro ⟨k, -⟩; exact k h

/-- A table with one entry; the stored checksums are 0. -/
private def volume44 : List Byte :=
  List.replicate 512 0#8 ++ [0x45#8, 0x46#8, 0x49#8, 0x20#8, 0x50#8, 0x41#8, 0x52#8, 0x54#8] ++ leBytes 4 0x10000 ++ leBytes 4 92 ++
    leBytes 8 0 ++ leBytes 8 1 ++ leBytes 8 0 ++ leBytes 8 3 ++ leBytes 8 7 ++ List.replicate 16 5#8 ++ leBytes 8 2 ++ leBytes 4 1 ++
    leBytes 4 128 ++ leBytes 4 0 ++ List.replicate 420 0#8 ++ List.replicate 32 1#8 ++ leBytes 8 3 ++ leBytes 8 6 ++ List.replicate 80 0#8

/-- The hypotheses of `C44_wellformed` are met. -/
private theorem volume44_ok : ∃ s, Gpt.readTable volume44 512 = .ok s ∧ s.bps = 512 := by
  have hl : volume44.length = 1152 := by decide +kernel
  have e1 : field (Spec.Gpt.header volume44 512) 32 8 = 0 := by decide +kernel
  have e2 : Spec.Gpt.number volume44 512 = 1 := by decide +kernel
  refine C44_wellformed volume44 (by omega) 512 512 (Or.inl ⟨rfl, by decide⟩)
    ⟨by decide +kernel, by decide +kernel, by decide +kernel, by decide +kernel, Or.inr ⟨rfl, by decide +kernel⟩⟩ (by rw [e1]; omega) (Or.inl (by rw [e1]))
    (by decide +kernel) (by omega) (by decide +kernel) ?_ (Or.inr ⟨rfl, by decide +kernel⟩)
  intro i hi _
  have : i = 0 := by omega
  subst this
  decide +kernel

/-- The hypotheses of `C44_window` are met. -/
example : (Spec.Gpt.partitions volume44 512)[0]? = some (0, List.replicate 16 1#8, List.replicate 16 1#8, 3, 6) := by decide +kernel

/-- C44 does not hold as stated: a header whose checksum does not match is accepted if the stored checksum is 0, and so are
entries whose checksum does not match. -/
theorem C44_violated_zero_checksum : ∃ volume s, Gpt.readTable volume 512 = .ok s ∧ ¬ Spec.Gpt.HeaderOk false (Spec.Gpt.header volume 512) ∧
    ¬ Spec.Gpt.EntriesOk false volume 512 := by
  obtain ⟨s, h, -⟩ := volume44_ok
  refine ⟨volume44, s, h, ?_, ?_⟩
  · rintro ⟨-, -, -, -, h | h⟩
    · revert h; decide +kernel
    · exact absurd h.1 (by decide)
  · rintro (h | h)
    · revert h; decide +kernel
    · exact absurd h.1 (by decide)

/-- Finding: a backup sector number whose offset does not fit in 64 bits makes the code panic. -/
theorem C44_backup_overflow_panics (volume : List Byte) (bps : Nat) (h0 : bps ≠ 0)
    (hh : Spec.Gpt.HeaderOk true (Spec.Gpt.header volume bps)) (hb : 2 ^ 64 ≤ field (Spec.Gpt.header volume bps) 32 8 * bps) :
    Gpt.readTable volume bps = .panic := by
  obtain ⟨hd, e1, -, e2⟩ := (Gpt.readHeaderAt_good volume bps).exists_ok hh
  unfold Gpt.readTable Gpt.primary
  rw [if_pos h0, e1, R.ok_bind, R.pure_eq, R.ok_bind]
  simp only
  rw [e2.1]
  unfold R.mulU
  rw [if_neg (show ¬ field (bytesAt volume bps 92) 32 8 * bps < 2 ^ 64 by have : Spec.Gpt.header volume bps = bytesAt volume bps 92 := rfl; rw [← this]; omega)]
  rfl

/-! ## C45 -/

/-- C45 (listing): if there is an extended partition, the partitions listed are the primary ones followed by the logical
ones of every extended boot record of the chain, in order. Missing: chains of more than 255 extended boot records, which are
rejected, and several extended partitions. -/
theorem C45_listing_partial (volume : List Byte) (bps set : Nat) (x : List Byte) (offsets : List Nat) (hrec : Spec.Mbr.Record volume 0)
    (hx : Spec.Mbr.extended volume = [x]) (h0 : field x 8 4 ≠ 0) (hbps : Spec.Mbr.SectorSize volume (field x 8 4) bps set)
    (hchain : Spec.Mbr.Chain volume bps (field x 8 4 * bps) (field x 8 4 * bps) offsets) (hlen : offsets.length ≤ 255) :
    ∃ s, Mbr.readBoot volume set = .ok s ∧ s.bps = bps ∧
      s.entries.map (fun e => (e.flags, e.kind, e.start, e.sectors)) =
        (Spec.Mbr.primary volume ++ offsets.flatMap (Spec.Mbr.logical volume)).map
          (fun e => (field e 0 1, Spec.Mbr.kind e, field e 8 4, field e 12 4)) ∧
      s.first = field x 8 4 * bps ∧ ∀ i e, s.entries[i]? = some e → (4 ≤ e.index ↔ (Spec.Mbr.primary volume).length ≤ i) := by
  have hb : bps ≠ 0 ∧ bps ≤ 65535 := by
    rcases hbps with ⟨-, h1, h2⟩ | ⟨-, h1, -⟩
    · exact ⟨h1, h2⟩
    · simp only [List.mem_cons, List.not_mem_nil, or_false] at h1; omega
  obtain ⟨r, hr, -, -, hr2⟩ := (Mbr.readRecordAt_good volume 0).exists_ok hrec
  have hcr : Spec.Mbr.Record volume (field x 8 4 * bps) := by cases hchain <;> assumption
  have hd := Mbr.detect_ok (set := set) hx hbps hcr
  obtain ⟨new, e1, e2, e3⟩ := Mbr.masterLoop_one hb.1 hb.2 _ x hx 0 []
  have hm := Mbr.start_mul (e := x) hb.2
  have hpos : 0 < field x 8 4 * bps := Nat.mul_pos (by omega) (by omega)
  obtain ⟨new', e4, e5, e6⟩ := Mbr.readExtended_chain hb.2 hpos (by omega) hchain 256 4 (by omega) (by omega) (by omega) new
  have hstrip : ∀ (l : List Mbr.Entry) (es : List (List Byte)), l.map Mbr.strip = es.map Mbr.parse →
      l.map (fun e => (e.flags, e.kind, e.start, e.sectors)) = es.map (fun e => (field e 0 1, Spec.Mbr.kind e, field e 8 4, field e 12 4)) := by
    intro l es h
    have := congrArg (List.map fun e : Mbr.Entry => (e.flags, e.kind, e.start, e.sectors)) h
    rw [List.map_map, List.map_map] at this
    exact this
  refine ⟨⟨bps, field x 8 4 * bps, r.1, new ++ new'⟩, ?_, rfl, ?_, rfl, ?_⟩
  · unfold Mbr.readBoot
    rw [← bind_assoc, hr, R.ok_bind, hr2, hd, R.ok_bind, e1, R.ok_bind]
    unfold Mbr.readLogical Mbr.guess
    simp only [List.nil_append]
    rw [if_pos (by omega), e4, R.ok_bind, if_neg hb.1]
    rfl
  · show (new ++ new').map _ = _
    rw [List.map_append, List.map_append, hstrip _ _ e2, hstrip _ _ e5]
    rfl
  · intro i e he
    have hl : new.length = (Spec.Mbr.primary volume).length := by
      have := congrArg List.length e2
      rw [List.length_map, List.length_map] at this
      exact this
    simp only [List.length_map, List.length_range] at e3
    rw [List.getElem?_append] at he
    split at he
    · have := e3 e (List.mem_of_getElem? he); omega
    · have := e6 e (List.mem_of_getElem? he); omega

/-- C45 (listing): without an extended partition the partitions listed are the primary ones. -/
theorem C45_listing_primary (volume : List Byte) (set : Nat) (hrec : Spec.Mbr.Record volume 0) (hx : Spec.Mbr.extended volume = []) :
    ∃ s, Mbr.readBoot volume set = .ok s ∧ (set ≠ 0 → s.bps = set) ∧
      s.entries.map (fun e => (e.flags, e.kind, e.start, e.sectors)) =
        (Spec.Mbr.primary volume).map (fun e => (field e 0 1, Spec.Mbr.kind e, field e 8 4, field e 12 4)) ∧
      ∀ e ∈ s.entries, e.index < 4 := by
  obtain ⟨r, hr, -, -, hr2⟩ := (Mbr.readRecordAt_good volume 0).exists_ok hrec
  have hno : ∀ e ∈ (List.range 4).map (Spec.Mbr.entry volume 0), ¬ (Spec.Mbr.kind e = 5 ∨ Spec.Mbr.kind e = 15) := by
    intro e he
    have := List.filter_eq_nil_iff.1 hx e he
    simpa using this
  have hd : Mbr.detect volume (((List.range 4).map (Spec.Mbr.entry volume 0)).map Mbr.parse) set = .ok set := by
    unfold Mbr.detect
    split
    · rename_i h
      have : (((List.range 4).map (Spec.Mbr.entry volume 0)).map Mbr.parse).find? (fun e => decide (e.kind = 5 ∨ e.kind = 15)) = none := by
        rw [List.find?_eq_none]
        intro e he
        obtain ⟨d, hd, rfl⟩ := List.mem_map.1 he
        have h2 := hno d hd
        show ¬ (decide (Spec.Mbr.kind d = 5 ∨ Spec.Mbr.kind d = 15) = true)
        simpa using h2
      rw [this, h]
    · rfl
  obtain ⟨new, e1, e2, e3⟩ := Mbr.masterLoop_none (bps := set) _ hno 0 0 []
  refine ⟨⟨Mbr.guess volume new set, 0, r.1, new⟩, ?_, ?_, ?_, ?_⟩
  · unfold Mbr.readBoot
    rw [← bind_assoc, hr, R.ok_bind, hr2, hd, R.ok_bind, e1, R.ok_bind]
    unfold Mbr.readLogical
    simp only [List.nil_append, ne_eq, not_true, if_false, R.ok_bind]
    rfl
  · intro h
    show Mbr.guess volume new set = set
    unfold Mbr.guess
    rw [if_neg h]
  · have := congrArg (List.map fun e : Mbr.Entry => (e.flags, e.kind, e.start, e.sectors)) e2
    rw [List.map_map, List.map_map] at this
    exact this
  · simpa using fun e he => (e3 e he).2

/-- C45 (contents): a primary partition, and a logical partition of the first extended boot record, is the window at its
location: every sequence of reads and seeks sees exactly those bytes. Missing: logical partitions of the other extended boot
records, for which the property does not hold (`C45_violated_location`). -/
theorem C45_window_partial (volume : List Byte) (under : Nat → Nat → Nat → List Byte) (hu : LegalUnder volume under)
    (bps set : Nat) (x : List Byte) (offsets : List Nat) (hrec : Spec.Mbr.Record volume 0)
    (hx : Spec.Mbr.extended volume = [x]) (h0 : field x 8 4 ≠ 0) (hbps : Spec.Mbr.SectorSize volume (field x 8 4) bps set)
    (hchain : Spec.Mbr.Chain volume bps (field x 8 4 * bps) (field x 8 4 * bps) offsets) (hlen : offsets.length ≤ 255)
    (i offset size : Nat) (hi : i < (Spec.Mbr.primary volume).length + (Spec.Mbr.logical volume (field x 8 4 * bps)).length)
    (hl : (Spec.Mbr.locations volume bps offsets)[i]? = some (offset, size))
    (ops : List StreamOp) (hf : size + seekBudget ops < 2 ^ 63) :
    ∃ s w tr, Mbr.readBoot volume set = .ok s ∧ Mbr.getPartition s i = .ok w ∧ Stream.run (Window.reader under w) ⟨0, 0⟩ ops = .ok tr ∧
      tr.map Prod.fst = ops ∧ Trace false (bytesAt volume offset size) size 0 tr := by
  obtain ⟨s, hs, hsb, hlist, hfirst, hidx⟩ := C45_listing_partial volume bps set x offsets hrec hx h0 hbps hchain hlen
  have hb : bps ≠ 0 ∧ bps ≤ 65535 := by
    rcases hbps with ⟨-, h1, h2⟩ | ⟨-, h1, -⟩
    · exact ⟨h1, h2⟩
    · simp only [List.mem_cons, List.not_mem_nil, or_false] at h1; omega
  obtain ⟨rest, rfl⟩ : ∃ rest, offsets = field x 8 4 * bps :: rest := by
    cases hchain with
    | last => exact ⟨[], rfl⟩
    | next _ _ rest => exact ⟨rest, rfl⟩
  rw [List.flatMap_cons, ← List.append_assoc] at hlist
  unfold Spec.Mbr.locations at hl
  rw [List.flatMap_cons, ← List.append_assoc] at hl
  have hm := Mbr.start_mul (e := x) hb.2
  have hn : ∀ d : List Byte, field d 12 4 * bps < 2 ^ 49 := by
    intro d
    have h1 := Mbr.field_lt d 12 4
    have h2 : field d 12 4 * bps ≤ 256 ^ 4 * 65535 := Nat.mul_le_mul (by omega) hb.2
    have h3 : 256 ^ 4 * 65535 < 2 ^ 49 := by decide
    omega
  have hget : ∀ d, (Spec.Mbr.primary volume ++ Spec.Mbr.logical volume (field x 8 4 * bps))[i]? = some d →
      ∃ e, s.entries[i]? = some e ∧ e.start = field d 8 4 ∧ e.sectors = field d 12 4 := by
    intro d hd
    have := congrArg (fun l => l[i]?) hlist
    simp only [List.getElem?_map] at this
    rw [List.getElem?_append_left (by rw [List.length_append]; exact hi), hd] at this
    cases he : s.entries[i]? with
    | none => rw [he] at this; cases this
    | some e =>
      rw [he] at this
      simp only [Option.map_some, Option.some.injEq, Prod.mk.injEq] at this
      exact ⟨e, rfl, this.2.2.1, this.2.2.2⟩
  have key : Mbr.getPartition s i = .ok ⟨offset, size⟩ ∧ offset < 2 ^ 50 ∧ size < 2 ^ 49 := by
    rw [List.getElem?_append_left (by rw [List.length_append, List.length_map, List.length_map]; exact hi)] at hl
    unfold Mbr.getPartition
    by_cases hp : i < (Spec.Mbr.primary volume).length
    · rw [List.getElem?_append_left (by rw [List.length_map]; exact hp), List.getElem?_map, List.getElem?_eq_getElem hp] at hl
      simp only [Option.map_some, Option.some.injEq, Prod.mk.injEq] at hl
      obtain ⟨e, he, h1, h2⟩ := hget _ (by rw [List.getElem?_append_left hp, List.getElem?_eq_getElem hp])
      have := hidx i e he
      have m1 := Mbr.start_mul (e := (Spec.Mbr.primary volume)[i]) hb.2
      have m2 := hn (Spec.Mbr.primary volume)[i]
      rw [he]
      simp only
      rw [hsb, R.require_true hb.1, R.ok_bind, h1, h2, R.mulU_ok (by omega), R.ok_bind, R.mulU_ok (by omega), R.ok_bind,
        Mbr.place, if_neg (by omega), R.ok_bind, hl.1, hl.2]
      exact ⟨rfl, by omega, by omega⟩
    · have hj : i - (Spec.Mbr.primary volume).length < (Spec.Mbr.logical volume (field x 8 4 * bps)).length := by omega
      rw [List.getElem?_append_right (by rw [List.length_map]; omega), List.length_map, List.getElem?_map, List.getElem?_eq_getElem hj] at hl
      simp only [Option.map_some, Option.some.injEq, Prod.mk.injEq] at hl
      obtain ⟨e, he, h1, h2⟩ := hget _ (by rw [List.getElem?_append_right (by omega), List.getElem?_eq_getElem hj])
      have := hidx i e he
      have m1 := Mbr.start_mul (e := (Spec.Mbr.logical volume (field x 8 4 * bps))[i - (Spec.Mbr.primary volume).length]) hb.2
      have m2 := hn (Spec.Mbr.logical volume (field x 8 4 * bps))[i - (Spec.Mbr.primary volume).length]
      rw [he]
      simp only
      rw [hsb, R.require_true hb.1, R.ok_bind, h1, h2, R.mulU_ok (by omega), R.ok_bind, R.mulU_ok (by omega), R.ok_bind,
        Mbr.place, if_pos (by omega), hfirst, R.addU_ok (by omega), R.ok_bind, Nat.add_comm, hl.1, hl.2]
      exact ⟨rfl, by omega, by omega⟩
  obtain ⟨tr, t1, t2, t3⟩ := C09_window_stream volume under hu offset size (by omega) ops hf
  exact ⟨s, ⟨offset, size⟩, tr, hs, key.1, t1, t2, t3⟩

/-- C45 (cycles): a chain that never ends, since each of its extended boot records has a link to another one of it, is
rejected. -/
theorem C45_cyclic (volume : List Byte) (bps set : Nat) (x : List Byte) (hrec : Spec.Mbr.Record volume 0)
    (hx : Spec.Mbr.extended volume = [x]) (h0 : field x 8 4 ≠ 0) (hbps : Spec.Mbr.SectorSize volume (field x 8 4) bps set)
    (S : Nat → Prop) (hS : ∀ o, S o → Spec.Mbr.Record volume o ∧ ∃ e, Spec.Mbr.links volume o = [e] ∧ S (field x 8 4 * bps + field e 8 4 * bps))
    (hin : S (field x 8 4 * bps)) : Mbr.readBoot volume set = .err := by
  have hb : bps ≠ 0 ∧ bps ≤ 65535 := by
    rcases hbps with ⟨-, h1, h2⟩ | ⟨-, h1, -⟩
    · exact ⟨h1, h2⟩
    · simp only [List.mem_cons, List.not_mem_nil, or_false] at h1; omega
  obtain ⟨r, hr, -, -, hr2⟩ := (Mbr.readRecordAt_good volume 0).exists_ok hrec
  have hd := Mbr.detect_ok (set := set) hx hbps (hS _ hin).1
  obtain ⟨new, e1, -⟩ := Mbr.masterLoop_one hb.1 hb.2 _ x hx 0 []
  have hm := Mbr.start_mul (e := x) hb.2
  have hpos : 0 < field x 8 4 * bps := Nat.mul_pos (by omega) (by omega)
  unfold Mbr.readBoot
  rw [← bind_assoc, hr, R.ok_bind, hr2, hd, R.ok_bind, e1, R.ok_bind]
  unfold Mbr.readLogical
  simp only
  rw [if_pos (by omega), Mbr.readExtended_endless hb.2 hpos (by omega) S (fun o ho => (hS o ho).2) 256 4 _ hin (by omega) (by omega)]
  rfl

/-- C45 (termination): reading the boot records of any volume ends, with partitions or an error; the recursion over extended
boot records never goes deeper than 256. -/
theorem C45_total (volume : List Byte) (set : Nat) (hset : set ≤ 65535) : Mbr.readBoot volume set ≠ .panic := by
  refine R.Sat.ne_panic (P := fun _ => True) ?_
  unfold Mbr.readBoot
  rw [← bind_assoc]
  refine (Mbr.readRecordAt_good volume 0).1.bind fun r hr => ?_
  rw [hr.2.2]
  refine (Mbr.detect_sat hset).bind fun bps hb => (Mbr.masterLoop_sat hb _ 0 0 (by decide) []).bind fun m hm => ?_
  refine R.Sat.bind (P := fun _ => True) ?_ fun _ _ => trivial
  unfold Mbr.readLogical
  split
  · exact Mbr.readExtended_sat hb hm 256 4 _ (by omega) (by omega) _
  · trivial

/-- A volume with an extended partition of two extended boot records, in sectors 1 and 2, each with one logical partition,
with an area of one sector after the extended boot record. -/
def volume45 : List Byte :=
  let part (kind start n : Nat) : List Byte := leBytes 4 0 ++ leBytes 4 kind ++ leBytes 4 start ++ leBytes 4 n
  let record (a b : List Byte) : List Byte := List.replicate 446 0#8 ++ a ++ b ++ List.replicate 32 0#8 ++ [0x55#8, 0xaa#8]
  record (part 7 4 1) (part 5 1 3) ++ record (part 7 1 1) (part 5 1 2) ++ record (part 7 1 1) (part 0 0 0)

theorem volume45_hyps : Spec.Mbr.Record volume45 0 ∧ (∃ x, Spec.Mbr.extended volume45 = [x] ∧ field x 8 4 = 1) ∧
    Spec.Mbr.Chain volume45 512 512 512 [512, 1024] := by
  refine ⟨⟨by decide +kernel, by decide +kernel⟩, ⟨Spec.Mbr.entry volume45 0 1, by decide +kernel, by decide +kernel⟩, ?_⟩
  refine .next 512 (Spec.Mbr.entry volume45 512 1) [1024] ⟨by decide +kernel, by decide +kernel⟩ (by decide +kernel) ?_
  have : 512 + field (Spec.Mbr.entry volume45 512 1) 8 4 * 512 = 1024 := by decide +kernel
  rw [this]
  exact .last 1024 ⟨by decide +kernel, by decide +kernel⟩ (by decide +kernel)

/-- The hypotheses of `C45_listing_partial` are met. -/
example : ∃ s, Mbr.readBoot volume45 512 = .ok s ∧ s.entries.length = 3 := by
  obtain ⟨h1, ⟨x, h2, h3⟩, h4⟩ := volume45_hyps
  obtain ⟨s, hs, -, hl, -⟩ := C45_listing_partial volume45 512 512 x [512, 1024] h1 h2 (by omega) (Or.inl ⟨rfl, by decide, by decide⟩)
    (by rw [h3]; exact h4) (by decide)
  refine ⟨s, hs, ?_⟩
  have := congrArg List.length hl
  rw [List.length_map, List.length_map] at this
  rw [this]
  decide +kernel

/-- C45 does not hold as stated: the logical partition of the second extended boot record is located relative to the first
one. -/
theorem C45_violated_location : ∃ volume s offset size, Spec.Mbr.Record volume 0 ∧ (∃ x, Spec.Mbr.extended volume = [x] ∧ field x 8 4 = 1) ∧
    Spec.Mbr.Chain volume 512 512 512 [512, 1024] ∧ Mbr.readBoot volume 512 = .ok s ∧
    (Spec.Mbr.locations volume 512 [512, 1024])[2]? = some (offset, size) ∧ Mbr.getPartition s 2 = .ok ⟨1024, size⟩ ∧ offset = 1536 := by
  obtain ⟨h1, h2, h3⟩ := volume45_hyps
  refine ⟨volume45, ⟨512, 512, 0, [⟨0, 0, 7, 4, 1⟩, ⟨4, 0, 7, 1, 1⟩, ⟨8, 0, 7, 1, 1⟩]⟩, 1536, 512, h1, h2, h3, ?_, ?_, ?_, rfl⟩ <;> decide +kernel

/-- A volume whose extended boot record in sector 1 has a link to itself. -/
private def cyclic45 : List Byte :=
  let part (kind start n : Nat) : List Byte := leBytes 4 0 ++ leBytes 4 kind ++ leBytes 4 start ++ leBytes 4 n
  let record (a b : List Byte) : List Byte := List.replicate 446 0#8 ++ a ++ b ++ List.replicate 32 0#8 ++ [0x55#8, 0xaa#8]
  record (part 7 4 1) (part 5 1 3) ++ record (part 7 1 1) (part 5 0 2)

/-- The hypotheses of `C45_cyclic` are met. -/
example : Mbr.readBoot cyclic45 512 = .err := by
  have e1 : field (Spec.Mbr.entry cyclic45 0 1) 8 4 * 512 = 512 := by decide +kernel
  refine C45_cyclic cyclic45 512 512 (Spec.Mbr.entry cyclic45 0 1) ⟨by decide +kernel, by decide +kernel⟩ (by decide +kernel)
    (by decide +kernel) (Or.inl ⟨rfl, by decide, by decide⟩) (fun o => o = 512) ?_ e1
  rintro o rfl
  refine ⟨⟨by decide +kernel, by decide +kernel⟩, Spec.Mbr.entry cyclic45 512 1, by decide +kernel, ?_⟩
  decide +kernel

/-! ## C46 -/

/-- C46: the partitions of a valid partition map are entries 1 to `n - 1`, in order, each with its start, number of sectors,
name, type and flags. -/
theorem C46_listing (volume : List Byte) (hv : volume.length < 2 ^ 63) (n : Nat) (h : Spec.Apm.Map volume n) :
    ∃ es, Apm.readMap volume = .ok es ∧
      es = (List.range' 1 (n - 1)).map fun i =>
        let d := Spec.Apm.entry volume i
        ⟨n, fieldBe d 8 4, fieldBe d 12 4, (bytesAt d 16 32).takeWhile (· ≠ 0#8), (bytesAt d 48 32).takeWhile (· ≠ 0#8), fieldBe d 88 4⟩ := by
  obtain ⟨h0, hlen, hall, rest, htype⟩ := h
  have hread := readExactAt_ok (show 512 + 512 ≤ volume.length by omega)
  have hl : (Spec.Apm.entry volume 0).length = 512 := by simp [Spec.Apm.entry, bytesAt]; omega
  obtain ⟨e, he, -, hp⟩ := (Apm.readEntry_good hl).exists_ok (hall 0 h0).1
  have hmt : Apm.mapType = Spec.Apm.mapType := by decide +kernel
  have ht : e.typeId = Apm.mapType := by
    rw [hp]
    show (bytesAt (Spec.Apm.entry volume 0) 48 32).takeWhile _ = _
    rw [htype, hmt, List.takeWhile_append_of_pos (by decide +kernel), List.takeWhile_cons_of_neg (by simp), List.append_nil]
  have hn : e.number = n := by rw [hp]; exact (hall 0 h0).2
  obtain ⟨es, hes, rfl, -⟩ := (Apm.mapLoop_good hv n (n - 1) 1 []).exists_ok (fun i h1 h2 => ⟨by omega, hall i (by omega)⟩)
  refine ⟨_, ?_, rfl⟩
  unfold Apm.readMap
  rw [hread, R.ok_bind, show (volume.drop 512).take 512 = Spec.Apm.entry volume 0 from rfl, he, R.ok_bind, R.require_true ht, R.ok_bind, hn, hes,
    List.nil_append]
  congr 1
  refine List.map_congr_left fun i hi => ?_
  rw [List.mem_range'_1] at hi
  unfold Apm.parse
  rw [(hall i (by omega)).2]

/-- C46 (the converse): a map that is accepted is valid, apart from a map of "0 entries", which has no partitions. -/
theorem C46_sound (volume : List Byte) (hv : volume.length < 2 ^ 63) (es : List Apm.Entry) (h : Apm.readMap volume = .ok es) :
    (fieldBe (Spec.Apm.entry volume 0) 4 4 = 0 ∧ es = []) ∨
    (es.length + 1 = fieldBe (Spec.Apm.entry volume 0) 4 4 ∧ 512 * (es.length + 2) ≤ volume.length ∧
      (∀ i, i ≤ es.length → bytesAt (Spec.Apm.entry volume i) 0 2 = [0x50#8, 0x4d#8] ∧ fieldBe (Spec.Apm.entry volume i) 4 4 = es.length + 1) ∧
      (bytesAt (Spec.Apm.entry volume 0) 48 32).takeWhile (· ≠ 0#8) = Spec.Apm.mapType) := by
  unfold Apm.readMap at h
  obtain ⟨d, hd, ha⟩ := R.bind_eq_ok.1 h
  obtain ⟨e, he, hb⟩ := R.bind_eq_ok.1 ha
  obtain ⟨_, ht, hc⟩ := R.bind_eq_ok.1 hb
  obtain ⟨rfl, hl, hle⟩ := (readExactAt_good (U := volume) (pos := 512) (n := 512)).of_ok hd
  have hle := hle (by omega)
  obtain ⟨hs, hp⟩ := (Apm.readEntry_good hl).of_ok he
  have ht := R.require_eq_ok.1 ht
  obtain ⟨h1, h2⟩ := (Apm.mapLoop_good hv e.number (e.number - 1) 1 []).of_ok hc
  have hnum : e.number = fieldBe (Spec.Apm.entry volume 0) 4 4 := by rw [hp]; rfl
  have hmt : Apm.mapType = Spec.Apm.mapType := by decide +kernel
  have hlen : es.length = e.number - 1 := by rw [h1]; simp
  by_cases h0 : e.number = 0
  · exact Or.inl ⟨hnum ▸ h0, List.length_eq_zero_iff.1 (by omega)⟩
  · refine Or.inr ⟨by omega, ?_, ?_, ?_⟩
    · by_cases hz : es.length = 0
      · omega
      · have := (h2 es.length (by omega) (by omega)).1; omega
    · intro i hi
      by_cases hi0 : i = 0
      · subst hi0
        exact ⟨hs, by omega⟩
      · have := (h2 i (by omega) (by omega)).2
        exact ⟨this.1, by omega⟩
    · rw [← hmt, ← ht, hp]; rfl

/-- C46: partition `i` is the window of `count * 512` bytes at `start * 512` of entry `i + 1`: every sequence of reads and
seeks sees exactly those bytes. -/
theorem C46_window (volume : List Byte) (hv : volume.length < 2 ^ 63) (under : Nat → Nat → Nat → List Byte) (hu : LegalUnder volume under)
    (n : Nat) (h : Spec.Apm.Map volume n) (i : Nat) (hi : i + 1 < n)
    (ops : List StreamOp) (hf : fieldBe (Spec.Apm.entry volume (i + 1)) 12 4 * 512 + seekBudget ops < 2 ^ 63) :
    ∃ es w tr, Apm.readMap volume = .ok es ∧ Apm.getPartition es i = .ok w ∧ Stream.run (Window.reader under w) ⟨0, 0⟩ ops = .ok tr ∧
      tr.map Prod.fst = ops ∧
      Trace false (bytesAt volume (fieldBe (Spec.Apm.entry volume (i + 1)) 8 4 * 512) (fieldBe (Spec.Apm.entry volume (i + 1)) 12 4 * 512))
        (fieldBe (Spec.Apm.entry volume (i + 1)) 12 4 * 512) 0 tr := by
  obtain ⟨es, hes, heq⟩ := C46_listing volume hv n h
  have hlt : ∀ off, fieldBe (Spec.Apm.entry volume (i + 1)) off 4 < 2 ^ 32 := by
    intro off
    unfold fieldBe beNat
    have h1 := leNat_lt (bytesAt (Spec.Apm.entry volume (i + 1)) off 4).reverse
    have h2 : 256 ^ (bytesAt (Spec.Apm.entry volume (i + 1)) off 4).reverse.length ≤ 256 ^ 4 :=
      Nat.pow_le_pow_right (by omega) (by simp [bytesAt])
    have h3 : 256 ^ 4 = 2 ^ 32 := by decide
    omega
  have arith : ∀ a b : Nat, a < 2 ^ 32 → b < 2 ^ 32 → a * 512 < 2 ^ 64 ∧ b * 512 < 2 ^ 64 ∧ a * 512 + b * 512 ≤ 2 ^ 64 := by
    clear hf; intro a b h1 h2; omega
  obtain ⟨a1, a2, a3⟩ := arith _ _ (hlt 8) (hlt 12)
  have hget := congrArg (fun l => l[i]?) heq
  simp only [List.getElem?_map] at hget
  rw [List.getElem?_range' (by omega), Option.map_some] at hget
  obtain ⟨tr, t1, t2, t3⟩ := C09_window_stream volume under hu (fieldBe (Spec.Apm.entry volume (i + 1)) 8 4 * 512)
    (fieldBe (Spec.Apm.entry volume (i + 1)) 12 4 * 512) a3 ops hf
  refine ⟨es, ⟨_, _⟩, tr, hes, ?_, t1, t2, t3⟩
  unfold Apm.getPartition
  rw [hget]
  simp only [Nat.one_mul, Nat.add_comm 1 i]
  rw [R.mulU_ok a1, R.ok_bind, R.mulU_ok a2, R.ok_bind]
  rfl

/-- A map of two entries. -/
private def volume46 : List Byte :=
  List.replicate 512 0#8 ++
    ([0x50#8, 0x4d#8, 0#8, 0#8] ++ beBytes 4 2 ++ beBytes 4 1 ++ beBytes 4 2 ++ List.replicate 32 0#8 ++ Spec.Apm.mapType ++ List.replicate 445 0#8) ++
    ([0x50#8, 0x4d#8, 0#8, 0#8] ++ beBytes 4 2 ++ beBytes 4 3 ++ beBytes 4 7 ++ List.replicate 496 0#8)

/-- It meets the hypotheses. -/
example : ∃ es, Apm.readMap volume46 = .ok es ∧ es.length = 1 := by
  have h1 : volume46.length = 1536 := by decide +kernel
  have h2 : ∀ i, i < 2 → bytesAt (Spec.Apm.entry volume46 i) 0 2 = [0x50#8, 0x4d#8] ∧ fieldBe (Spec.Apm.entry volume46 i) 4 4 = 2 := by
    decide +kernel
  have h3 : bytesAt (Spec.Apm.entry volume46 0) 48 32 = Spec.Apm.mapType ++ 0#8 :: List.replicate 12 0#8 := by decide +kernel
  obtain ⟨es, h, he⟩ := C46_listing volume46 (by omega) 2 ⟨by decide, by omega, h2, _, h3⟩
  refine ⟨es, h, ?_⟩
  rw [he, List.length_map, List.length_range']

end Keramics.Props
