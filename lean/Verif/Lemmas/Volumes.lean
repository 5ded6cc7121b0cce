import Verif.Model.Volumes
import Verif.Spec.Volumes
import Verif.Base.Good
import Verif.Base.Bits
import Verif.Base.Tactics
import Verif.Lemmas.Crc32

namespace Keramics
open Keramics.Spec

theorem slice_bytesAt {data : List Byte} {a n : Nat} (h : a + n ≤ data.length) : R.slice data a (a + n) = .ok (bytesAt data a n) := by
  rw [R.slice_ok (by omega) h, Nat.add_sub_cancel_left]; rfl

theorem slice_bytesAt' {data : List Byte} {a b n : Nat} (hb : b = a + n) (h : a + n ≤ data.length) : R.slice data a b = .ok (bytesAt data a n) := by
  subst hb; exact slice_bytesAt h

theorem u32le_field {data : List Byte} {a : Nat} (h : a + 4 ≤ data.length) : u32le data a = .ok (field data a 4) := by
  unfold u32le; rw [slice_bytesAt h]; rfl

theorem u64le_field {data : List Byte} {a : Nat} (h : a + 8 ≤ data.length) : u64le data a = .ok (field data a 8) := by
  unfold u64le; rw [slice_bytesAt h]; rfl

theorem u32be_field {data : List Byte} {a : Nat} (h : a + 4 ≤ data.length) : u32be data a = .ok (fieldBe data a 4) := by
  unfold u32be; rw [slice_bytesAt h]; rfl

theorem bytesAt_length {data : List Byte} {a n : Nat} (h : a + n ≤ data.length) : (bytesAt data a n).length = n := by
  simp [bytesAt]; omega

theorem bytesAt_bytesAt {data : List Byte} {a n b m : Nat} (h : b + m ≤ n) : bytesAt (bytesAt data a n) b m = bytesAt data (a + b) m := by
  unfold bytesAt
  rw [List.drop_take, List.take_take, List.drop_drop, Nat.min_eq_left (by omega)]

theorem readExactAt_good {U : List Byte} {pos n : Nat} :
    R.Good (pos + n ≤ U.length) (readExactAt U pos n) (fun d => d = bytesAt U pos n ∧ d.length = n ∧ (0 < n → pos + n ≤ U.length)) := by
  refine ⟨R.Sat.intro readExactAt_ne_panic fun d hd => ?_, fun h => by rw [readExactAt_ok h]; simp⟩
  obtain ⟨h1, h2⟩ := readExactAt_eq_ok.1 hd
  refine ⟨h1, h2, fun _ => ?_⟩
  rw [h1, List.length_take, List.length_drop] at h2; omega

theorem uuid_fromLe {data : List Byte} (h : data.length = 16) :
    ∃ u, Uuid.fromLeBytes data = .ok u ∧ (Uuid.isNil u = true ↔ data = List.replicate 16 0#8) := by
  match data, h with
  | [b0, b1, b2, b3, b4, b5, b6, b7, b8, b9, b10, b11, b12, b13, b14, b15], _ =>
    refine ⟨⟨leNat [b0, b1, b2, b3], leNat [b4, b5], leNat [b6, b7], beNat [b8, b9], (beNat [b10, b11] <<< 32) ||| beNat [b12, b13, b14, b15]⟩, rfl, ?_⟩
    have hlt : beNat [b12, b13, b14, b15] < 2 ^ 32 := by
      simp only [beNat, List.reverse_cons, List.reverse_nil, List.nil_append, List.cons_append, leNat]
      have := b12.isLt; have := b13.isLt; have := b14.isLt; have := b15.isLt
      omega
    rw [shl_or hlt]
    constructor
    · intro hn
      simp only [Uuid.isNil, Bool.and_eq_true, beq_iff_eq] at hn
      obtain ⟨⟨⟨⟨h1, h2⟩, h3⟩, h4⟩, h5⟩ := hn
      have hz : ∀ b : Byte, b.toNat = 0 → b = 0#8 := fun b hb => BitVec.eq_of_toNat_eq (by simpa using hb)
      simp only [beNat, List.reverse_cons, List.reverse_nil, List.nil_append, List.cons_append, leNat] at h1 h2 h3 h4 h5 hlt
      rw [hz b0 (by omega), hz b1 (by omega), hz b2 (by omega), hz b3 (by omega), hz b4 (by omega), hz b5 (by omega), hz b6 (by omega),
        hz b7 (by omega), hz b8 (by omega), hz b9 (by omega), hz b10 (by omega), hz b11 (by omega), hz b12 (by omega), hz b13 (by omega),
        hz b14 (by omega), hz b15 (by omega)]
      rfl
    · intro he
      simp only [List.replicate, List.cons.injEq, and_true] at he
      obtain ⟨rfl, rfl, rfl, rfl, rfl, rfl, rfl, rfl, rfl, rfl, rfl, rfl, rfl, rfl, rfl, rfl⟩ := he
      decide

theorem forall₂_append {α β} {P : α → β → Prop} {a a' : List α} {b b' : List β} (h : List.Forall₂ P a b) (h' : List.Forall₂ P a' b') :
    List.Forall₂ P (a ++ a') (b ++ b') := by
  induction h with
  | nil => exact h'
  | cons h _ ih => exact .cons h ih

namespace Gpt

theorem crc_ok (chunks : List (List Byte)) : crc chunks = .ok (gptCrc chunks.flatten) := by
  obtain ⟨c, h1, h2, h3, h4, h5⟩ := Crc32.revUpdates_ok _ (Crc32.Inv.new _ 0xedb88320#32 0#32) chunks
  unfold crc
  rw [h1, R.ok_bind, R.pure_eq]
  have hnot : ∀ x : BitVec 32, x ^^^ 0xffffffff#32 = ~~~ x := fun x => by
    rw [show (0xffffffff#32) = BitVec.allOnes 32 from rfl, BitVec.xor_allOnes]
  simp only [Crc32.Ctx.finalize, h5, hnot, gptCrc, Spec.crc32Reflected, Crc32.Ctx.new]

/-- The header as read. -/
def Fields (d : List Byte) (h : Header) : Prop :=
  h.backup = field d 32 8 ∧ h.areaStart = field d 40 8 ∧ h.areaEnd = field d 48 8 ∧ h.entriesStart = field d 72 8 ∧ h.number = field d 80 4 ∧
    h.entrySize = field d 84 4 ∧ h.checksum = field d 88 4 ∧ Uuid.fromLeBytes (bytesAt d 56 16) = .ok h.disk

theorem readHeader_good (d : List Byte) :
    R.Good (Spec.Gpt.HeaderOk true d) (readHeader d) (fun h => Spec.Gpt.HeaderOk true d ∧ Fields d h) := by
  unfold readHeader
  refine (R.Good.require (fun h => h.1)).bind fun _ hl => ?_
  rw [slice_bytesAt' (n := 8) rfl (by omega), R.ok_bind]
  refine (R.Good.require (fun h => h.2.1)).bind fun _ h1 => ?_
  rw [u32le_field (by omega), R.ok_bind]
  refine (R.Good.require (fun h => h.2.2.1)).bind fun _ h2 => ?_
  rw [u32le_field (by omega), R.ok_bind]
  refine (R.Good.require (fun h => h.2.2.2.1)).bind fun _ h3 => ?_
  rw [u32le_field (by omega), R.ok_bind, slice_bytesAt' (n := 16) rfl (by omega), R.ok_bind, slice_bytesAt' (n := 72) rfl (by omega), R.ok_bind,
    crc_ok, R.ok_bind]
  have hflat : [bytesAt d 0 16, List.replicate 4 0#8, bytesAt d 20 72].flatten = bytesAt d 0 16 ++ List.replicate 4 0#8 ++ bytesAt d 20 72 := by
    simp
  rw [hflat]
  refine (R.Good.require (fun h => ?_)).bind fun _ h4 => ?_
  · rcases h.2.2.2.2 with h | ⟨-, h⟩
    · rintro ⟨-, k⟩; exact k h
    · rintro ⟨k, -⟩; exact k h
  obtain ⟨u, hu, -⟩ := uuid_fromLe (data := bytesAt d 56 16) (bytesAt_length (by omega))
  rw [u64le_field (by omega), R.ok_bind, u64le_field (by omega), R.ok_bind, u64le_field (by omega), R.ok_bind,
    slice_bytesAt' (n := 16) rfl (by omega), R.ok_bind, hu, R.ok_bind, u64le_field (by omega), R.ok_bind,
    u32le_field (by omega), R.ok_bind, u32le_field (by omega), R.ok_bind, u32le_field (by omega), R.ok_bind]
  refine R.Good.ok ⟨⟨hl, h1, h2, h3, ?_⟩, rfl, rfl, rfl, rfl, rfl, rfl, rfl, hu⟩
  by_cases hz : field d 16 4 = 0
  · exact Or.inr ⟨rfl, hz⟩
  · exact Or.inl (Classical.byContradiction fun k => h4 ⟨hz, k⟩)

theorem readHeaderAt_good (U : List Byte) (pos : Nat) :
    R.Good (Spec.Gpt.HeaderOk true (bytesAt U pos 92)) (readHeaderAt U pos)
      (fun h => Spec.Gpt.HeaderOk true (bytesAt U pos 92) ∧ Fields (bytesAt U pos 92) h) := by
  unfold readHeaderAt
  refine (readExactAt_good.mono (fun h => ?_) (fun _ h => h)).bind fun d hd => ?_
  · have := h.1
    unfold bytesAt at this
    rw [List.length_take, List.length_drop] at this; omega
  · obtain ⟨rfl, -⟩ := hd
    exact readHeader_good _

/-- An entry as read. -/
def Same (e : Entry) (p : Nat × List Byte × List Byte × Nat × Nat) : Prop :=
  e.index = p.1 ∧ Uuid.fromLeBytes p.2.1 = .ok e.typeId ∧ Uuid.fromLeBytes p.2.2.1 = .ok e.id ∧ e.start = p.2.2.2.1 ∧ e.end_ = p.2.2.2.2

theorem entriesLoop_good {U : List Byte} (hU : U.length < 2 ^ 64) (a n index off : Nat) (chunks : List (List Byte)) (entries : List Entry) :
    R.Good (∀ i, i < n → off + 128 * (i + 1) ≤ U.length ∧ (Spec.Gpt.used (bytesAt U (off + 128 * i) 128) = true →
        a ≤ field (bytesAt U (off + 128 * i) 128) 32 8 ∧
        field (bytesAt U (off + 128 * i) 128) 32 8 ≤ field (bytesAt U (off + 128 * i) 128) 40 8))
      (entriesLoop U a n index off chunks entries)
      (fun r => r.1 = chunks ++ (List.range n).map (fun i => bytesAt U (off + 128 * i) 128) ∧
        (∀ i, i < n → off + 128 * (i + 1) ≤ U.length) ∧
        ∃ es, r.2 = entries ++ es ∧ (∀ e ∈ es, a ≤ e.start ∧ e.start ≤ e.end_) ∧
        List.Forall₂ Same es ((List.range n).filterMap fun i =>
          let e := bytesAt U (off + 128 * i) 128
          if Spec.Gpt.used e then some (index + i, bytesAt e 0 16, bytesAt e 16 16, field e 32 8, field e 40 8) else none)) := by
  induction n generalizing index off chunks entries with
  | zero => exact R.Good.ok ⟨by simp, by simp, [], by simp, by simp, by simp⟩
  | succ n ih =>
    rw [entriesLoop]
    refine (readExactAt_good.mono (fun h => ?_) (fun _ h => h)).bind fun d hd => ?_
    · have := (h 0 (by omega)).1; omega
    obtain ⟨rfl, hl, hle⟩ := hd
    have hle := hle (by omega)
    rw [R.addU_ok (by omega), R.ok_bind]
    unfold readEntry
    obtain ⟨u, hu, hnil⟩ := uuid_fromLe (data := bytesAt (bytesAt U off 128) 0 16) (bytesAt_length (by omega))
    obtain ⟨u2, hu2, -⟩ := uuid_fromLe (data := bytesAt (bytesAt U off 128) 16 16) (bytesAt_length (by omega))
    rw [R.require_true hl, R.ok_bind, slice_bytesAt' (n := 16) rfl (by omega), R.ok_bind, hu, R.ok_bind,
      slice_bytesAt' (n := 16) rfl (by omega), R.ok_bind, hu2, R.ok_bind, u64le_field (by omega), R.ok_bind, u64le_field (by omega), R.ok_bind,
      R.pure_eq, R.ok_bind]
    have hused : Spec.Gpt.used (bytesAt U off 128) = true ↔ Uuid.isNil u = false := by
      unfold Spec.Gpt.used
      rw [decide_eq_true_iff, ne_eq, ← hnil]; simp
    generalize hE : bytesAt U off 128 = E at *
    have hE0 : bytesAt U (off + 128 * 0) 128 = E := hE
    have hshift : ∀ i, bytesAt U (off + 128 * (i + 1)) 128 = bytesAt U (off + 128 + 128 * i) 128 := fun i => by congr 1; omega
    have hkeep : R.Good (∀ i, i < n + 1 → off + 128 * (i + 1) ≤ U.length ∧ (Spec.Gpt.used (bytesAt U (off + 128 * i) 128) = true →
        a ≤ field (bytesAt U (off + 128 * i) 128) 32 8 ∧
        field (bytesAt U (off + 128 * i) 128) 32 8 ≤ field (bytesAt U (off + 128 * i) 128) 40 8))
        (keep a ⟨index, u, u2, field E 32 8, field E 40 8⟩ entries)
        (fun es => ∃ new, es = entries ++ new ∧ (∀ e ∈ new, a ≤ e.start ∧ e.start ≤ e.end_) ∧ List.Forall₂ Same new
          (if Spec.Gpt.used E then [(index, bytesAt E 0 16, bytesAt E 16 16, field E 32 8, field E 40 8)] else [])) := by
      unfold keep
      simp only
      split
      · rename_i hn
        have hn := hused.2 hn
        refine (R.Good.require fun h => ?_).bind fun _ h1 => (R.Good.require fun h => ?_).bind fun _ h2 =>
          R.Good.ok ⟨_, rfl, ?_, ?_⟩
        · have := (h 0 (by omega)).2
          rw [hE0] at this
          have := (this hn).1; omega
        · have := (h 0 (by omega)).2
          rw [hE0] at this
          have := (this hn).2; omega
        · simp only [List.mem_singleton, forall_eq]; omega
        · rw [if_pos hn]; exact .cons ⟨rfl, hu, hu2, rfl, rfl⟩ .nil
      · rename_i hn
        refine R.Good.ok ⟨[], by simp, by simp, ?_⟩
        rw [if_neg (fun k => hn (hused.1 k))]; exact .nil
    refine hkeep.bind fun es hes => ?_
    obtain ⟨new, rfl, hb, hs⟩ := hes
    refine (ih (index + 1) (off + 128) (chunks ++ [E]) (entries ++ new)).mono (fun h i hi => ?_) (fun r hr => ?_)
    · have := h (i + 1) (by omega)
      rw [hshift] at this
      exact ⟨by omega, this.2⟩
    · obtain ⟨r1, r2, es, r3, r4, r5⟩ := hr
      refine ⟨?_, ?_, new ++ es, by rw [r3, List.append_assoc], ?_, ?_⟩
      · rw [r1, List.range_succ_eq_map, List.map_cons, List.map_map, hE0, List.append_assoc]
        congr 1
        rw [List.singleton_append]
        congr 1
        apply List.map_congr_left
        intro i _
        exact (hshift i).symm
      · intro i hi
        cases i with
        | zero => omega
        | succ i => have := r2 i (by omega); omega
      · intro e he
        rcases List.mem_append.1 he with he | he
        · exact hb e he
        · exact r4 e he
      · rw [List.range_succ_eq_map, List.filterMap_cons, List.filterMap_map]
        have hrest : ((List.range n).filterMap ((fun i =>
            let e := bytesAt U (off + 128 * i) 128
            if Spec.Gpt.used e then some (index + i, bytesAt e 0 16, bytesAt e 16 16, field e 32 8, field e 40 8) else none) ∘ Nat.succ)) =
            (List.range n).filterMap fun i =>
            let e := bytesAt U (off + 128 + 128 * i) 128
            if Spec.Gpt.used e then some (index + 1 + i, bytesAt e 0 16, bytesAt e 16 16, field e 32 8, field e 40 8) else none := by
          congr 1
          funext i
          simp only [Function.comp_apply, Nat.succ_eq_add_one, hshift]
          rw [show index + (i + 1) = index + 1 + i by omega]
        rw [hrest]
        simp only [hE0, Nat.add_zero]
        by_cases hq : Spec.Gpt.used E = true
        · rw [if_pos hq] at hs ⊢
          exact forall₂_append hs r5
        · rw [if_neg hq] at hs ⊢
          cases hs
          exact r5

end Gpt
namespace Mbr

/-- An entry as read. -/
def parse (e : List Byte) : Entry := ⟨0, field e 0 1, Spec.Mbr.kind e, field e 8 4, field e 12 4⟩

/-- An entry without its index. -/
def strip (e : Entry) : Entry := { e with index := 0 }

theorem readEntry_ok {d : List Byte} (h : d.length = 16) : readEntry d = .ok (parse d) := by
  have h1 : ∀ i (_ : i < 16), ∃ b, R.get d i = .ok b ∧ b.toNat = field d i 1 := by
    intro i hi
    refine ⟨d[i], R.get_ok (by omega), ?_⟩
    unfold field bytesAt
    rw [List.drop_eq_getElem_cons (by omega), List.take_succ_cons, List.take_zero]
    simp [leNat]
  obtain ⟨b0, e0, f0⟩ := h1 0 (by omega)
  obtain ⟨b4, e4, f4⟩ := h1 4 (by omega)
  unfold readEntry
  rw [R.require_true h, R.ok_bind, e0, R.ok_bind, e4, R.ok_bind, u32le_field (by omega), R.ok_bind, u32le_field (by omega), R.ok_bind, f0, f4]
  rfl

theorem readRecordAt_good (U : List Byte) (off : Nat) :
    R.Good (Spec.Mbr.Record U off) (do readRecord (← readExactAt U off 512))
      (fun r => Spec.Mbr.Record U off ∧ r.1 = field (bytesAt U off 512) 440 4 ∧ r.2 = ((List.range 4).map (Spec.Mbr.entry U off)).map parse) := by
  refine (readExactAt_good.mono (fun h => h.1) (fun _ h => h)).bind fun d hd => ?_
  obtain ⟨rfl, hl, hle⟩ := hd
  have hle := hle (by omega)
  unfold readRecord
  have hent : ∀ a, a + 16 ≤ 512 → (do readEntry (← R.slice (bytesAt U off 512) a (a + 16))) = .ok (parse (bytesAt U (off + a) 16)) := by
    intro a ha
    rw [slice_bytesAt (by omega), R.ok_bind, bytesAt_bytesAt ha, readEntry_ok (bytesAt_length (by omega))]
  have hents : readEntries (bytesAt U off 512) [446, 462, 478, 494] = .ok (((List.range 4).map (Spec.Mbr.entry U off)).map parse) := by
    simp only [readEntries]
    simp only [slice_bytesAt (data := bytesAt U off 512) (a := 446) (n := 16) (by omega), slice_bytesAt (data := bytesAt U off 512) (a := 462) (n := 16) (by omega),
      slice_bytesAt (data := bytesAt U off 512) (a := 478) (n := 16) (by omega), slice_bytesAt (data := bytesAt U off 512) (a := 494) (n := 16) (by omega), R.ok_bind]
    rw [bytesAt_bytesAt (by omega), bytesAt_bytesAt (by omega), bytesAt_bytesAt (by omega), bytesAt_bytesAt (by omega),
      readEntry_ok (bytesAt_length (by omega)), readEntry_ok (bytesAt_length (by omega)), readEntry_ok (bytesAt_length (by omega)),
      readEntry_ok (bytesAt_length (by omega))]
    simp only [R.ok_bind, R.pure_eq]
    rfl
  rw [R.require_true hl, R.ok_bind, slice_bytesAt' (n := 2) rfl (by omega), R.ok_bind, bytesAt_bytesAt (by omega)]
  refine (R.Good.require fun h => h.2).bind fun _ hs => ?_
  rw [u32le_field (by omega), R.ok_bind, hents, R.ok_bind]
  exact R.Good.ok ⟨⟨hle, hs⟩, rfl, rfl⟩

theorem field_lt (d : List Byte) (a n : Nat) : field d a n < 256 ^ n := by
  unfold field
  have := leNat_lt (bytesAt d a n)
  have h2 : 256 ^ (bytesAt d a n).length ≤ 256 ^ n := Nat.pow_le_pow_right (by omega) (by simp [bytesAt])
  omega

theorem start_mul {e : List Byte} {bps : Nat} (h : bps ≤ 65535) : field e 8 4 * bps < 2 ^ 49 := by
  have h1 := field_lt e 8 4
  have h2 : field e 8 4 * bps ≤ 256 ^ 4 * 65535 := Nat.mul_le_mul (by omega) h
  have h3 : 256 ^ 4 * 65535 < 2 ^ 49 := by decide
  omega

/-- The partitions added by a list of entries: those of the list, with an index from a range. -/
def Adds (lo hi : Nat) (es : List (List Byte)) (new : List Entry) : Prop :=
  new.map strip = es.map parse ∧ ∀ e ∈ new, lo ≤ e.index ∧ e.index < hi

theorem Adds.nil {lo hi : Nat} : Adds lo hi [] [] := ⟨rfl, by simp⟩

theorem Adds.cons {lo hi i : Nat} {e : List Byte} {es : List (List Byte)} {new : List Entry} (h : Adds lo hi es new) (h1 : lo ≤ i) (h2 : i < hi) :
    Adds lo hi (e :: es) ({ parse e with index := i } :: new) := by
  refine ⟨by rw [List.map_cons, List.map_cons, h.1]; rfl, ?_⟩
  intro x hx
  rcases List.mem_cons.1 hx with rfl | hx
  · exact ⟨h1, h2⟩
  · exact h.2 x hx

theorem Adds.append {lo hi : Nat} {es es' : List (List Byte)} {new new' : List Entry} (h : Adds lo hi es new) (h' : Adds lo hi es' new') :
    Adds lo hi (es ++ es') (new ++ new') := by
  refine ⟨by rw [List.map_append, List.map_append, h.1, h'.1], ?_⟩
  intro x hx
  rcases List.mem_append.1 hx with hx | hx
  · exact h.2 x hx
  · exact h'.2 x hx

theorem Adds.mono {lo hi lo' hi' : Nat} {es : List (List Byte)} {new : List Entry} (h : Adds lo hi es new) (h1 : lo' ≤ lo) (h2 : hi ≤ hi') :
    Adds lo' hi' es new := ⟨h.1, fun e he => by have := h.2 e he; omega⟩

/-- The entries of the master boot record without an extended partition, or after it. -/
theorem masterLoop_none {bps : Nat} (es : List (List Byte)) (hx : ∀ e ∈ es, ¬ (Spec.Mbr.kind e = 5 ∨ Spec.Mbr.kind e = 15))
    (index ext : Nat) (acc : List Entry) :
    ∃ new, masterLoop bps (es.map parse) index ext acc = .ok (acc ++ new, ext) ∧
      Adds index (index + es.length) (es.filter fun e => Spec.Mbr.kind e ≠ 0 ∧ Spec.Mbr.kind e ≠ 5 ∧ Spec.Mbr.kind e ≠ 15) new := by
  induction es generalizing index acc with
  | nil => exact ⟨[], by simp [masterLoop], .nil⟩
  | cons e es ih =>
    have hk := hx e (by simp)
    rw [List.map_cons, masterLoop, if_neg (show ¬((parse e).kind = 5 ∨ (parse e).kind = 15) from hk)]
    by_cases h0 : Spec.Mbr.kind e = 0
    · obtain ⟨new, e1, e2⟩ := ih (fun x hx' => hx x (List.mem_cons_of_mem _ hx')) (index + 1) acc
      rw [if_neg (show ¬ (parse e).kind ≠ 0 from fun k => k h0), List.filter_cons_of_neg (by simp [h0])]
      exact ⟨new, e1, e2.mono (by omega) (by simp only [List.length_cons]; omega)⟩
    · obtain ⟨new, e1, e2⟩ := ih (fun x hx' => hx x (List.mem_cons_of_mem _ hx')) (index + 1) (acc ++ [{ parse e with index := index }])
      rw [if_pos (show (parse e).kind ≠ 0 from h0), List.filter_cons_of_pos (by simp; omega)]
      refine ⟨{ parse e with index := index } :: new, by rw [e1]; simp, ?_⟩
      exact (e2.mono (Nat.le_succ _) (by simp only [List.length_cons]; omega)).cons (by omega) (by simp only [List.length_cons]; omega)

/-- The entries of the master boot record with one extended partition. -/
theorem masterLoop_one {bps : Nat} (hb : bps ≠ 0) (hb2 : bps ≤ 65535) (es : List (List Byte)) (x : List Byte)
    (hx : (es.filter fun e => Spec.Mbr.kind e = 5 ∨ Spec.Mbr.kind e = 15) = [x]) (index : Nat) (acc : List Entry) :
    ∃ new, masterLoop bps (es.map parse) index 0 acc = .ok (acc ++ new, field x 8 4 * bps) ∧
      Adds index (index + es.length) (es.filter fun e => Spec.Mbr.kind e ≠ 0 ∧ Spec.Mbr.kind e ≠ 5 ∧ Spec.Mbr.kind e ≠ 15) new := by
  induction es generalizing index acc with
  | nil => cases hx
  | cons e es ih =>
    by_cases hk : Spec.Mbr.kind e = 5 ∨ Spec.Mbr.kind e = 15
    · rw [List.filter_cons_of_pos (by simpa using hk)] at hx
      obtain ⟨he, hnil⟩ := List.cons.inj hx
      subst he
      have hm := start_mul (e := e) hb2
      obtain ⟨new, e1, e2⟩ := masterLoop_none (bps := bps) es (by
        intro y hy
        have := List.filter_eq_nil_iff.1 hnil y hy
        simpa using this) (index + 1) (field e 8 4 * bps) acc
      rw [List.map_cons, masterLoop, if_pos (show (parse e).kind = 5 ∨ (parse e).kind = 15 from hk), R.require_true hb, R.ok_bind,
        R.require_true rfl, R.ok_bind, show (parse e).start = field e 8 4 from rfl, R.mulU_ok (by omega), R.ok_bind,
        List.filter_cons_of_neg (by simp; omega)]
      exact ⟨new, e1, e2.mono (by omega) (by simp only [List.length_cons]; omega)⟩
    · rw [List.filter_cons_of_neg (by simpa using hk)] at hx
      rw [List.map_cons, masterLoop, if_neg (show ¬((parse e).kind = 5 ∨ (parse e).kind = 15) from hk)]
      by_cases h0 : Spec.Mbr.kind e = 0
      · obtain ⟨new, e1, e2⟩ := ih hx (index + 1) acc
        rw [if_neg (show ¬ (parse e).kind ≠ 0 from fun k => k h0), List.filter_cons_of_neg (by simp [h0])]
        exact ⟨new, e1, e2.mono (by omega) (by simp only [List.length_cons]; omega)⟩
      · obtain ⟨new, e1, e2⟩ := ih hx (index + 1) (acc ++ [{ parse e with index := index }])
        rw [if_pos (show (parse e).kind ≠ 0 from h0), List.filter_cons_of_pos (by simp; omega)]
        refine ⟨{ parse e with index := index } :: new, by rw [e1]; simp, ?_⟩
        exact (e2.mono (Nat.le_succ _) (by simp only [List.length_cons]; omega)).cons (by omega) (by simp only [List.length_cons]; omega)

/-- The entries of an extended boot record without a link, or after it. -/
theorem extendedLoop_none {bps first fi : Nat} (es : List (List Byte)) (hx : ∀ e ∈ es, Spec.Mbr.kind e ≠ 5) (index next : Nat) (acc : List Entry) :
    ∃ new, extendedLoop bps first fi (es.map parse) index next acc = .ok (acc ++ new, next) ∧
      Adds fi (fi + index + es.length) (es.filter fun e => Spec.Mbr.kind e ≠ 0 ∧ Spec.Mbr.kind e ≠ 5) new := by
  induction es generalizing index acc with
  | nil => exact ⟨[], by simp [extendedLoop], .nil⟩
  | cons e es ih =>
    have hk := hx e (by simp)
    rw [List.map_cons, extendedLoop]
    by_cases h0 : Spec.Mbr.kind e = 0
    · obtain ⟨new, e1, e2⟩ := ih (fun x hx' => hx x (List.mem_cons_of_mem _ hx')) index acc
      rw [if_pos (show (parse e).kind = 0 from h0), List.filter_cons_of_neg (by simp [h0])]
      exact ⟨new, e1, e2.mono (by omega) (by simp only [List.length_cons]; omega)⟩
    · obtain ⟨new, e1, e2⟩ := ih (fun x hx' => hx x (List.mem_cons_of_mem _ hx')) (index + 1) (acc ++ [{ parse e with index := fi + index }])
      rw [if_neg (show ¬ (parse e).kind = 0 from h0), if_neg (show ¬ (parse e).kind = 5 from hk), List.filter_cons_of_pos (by simp; omega)]
      refine ⟨{ parse e with index := fi + index } :: new, by rw [e1]; simp, ?_⟩
      exact (e2.mono (Nat.le_refl _) (by simp only [List.length_cons]; omega)).cons (by omega) (by simp only [List.length_cons]; omega)

/-- The entries of an extended boot record with one link. -/
theorem extendedLoop_one {bps first fi : Nat} (hb2 : bps ≤ 65535) (hf : first < 2 ^ 63) (es : List (List Byte)) (x : List Byte)
    (hx : (es.filter fun e => Spec.Mbr.kind e = 5) = [x]) (index : Nat) (acc : List Entry) :
    ∃ new, extendedLoop bps first fi (es.map parse) index 0 acc = .ok (acc ++ new, first + field x 8 4 * bps) ∧
      Adds fi (fi + index + es.length) (es.filter fun e => Spec.Mbr.kind e ≠ 0 ∧ Spec.Mbr.kind e ≠ 5) new := by
  induction es generalizing index acc with
  | nil => cases hx
  | cons e es ih =>
    rw [List.map_cons, extendedLoop]
    by_cases hk : Spec.Mbr.kind e = 5
    · rw [List.filter_cons_of_pos (by simpa using hk)] at hx
      obtain ⟨he, hnil⟩ := List.cons.inj hx
      subst he
      have hm := start_mul (e := e) hb2
      obtain ⟨new, e1, e2⟩ := extendedLoop_none (bps := bps) (first := first) (fi := fi) es (by
        intro y hy
        have := List.filter_eq_nil_iff.1 hnil y hy
        simpa using this) (index + 1) (first + field e 8 4 * bps) acc
      rw [if_neg (show ¬ (parse e).kind = 0 from fun k => by have : Spec.Mbr.kind e = 0 := k; omega),
        if_pos (show (parse e).kind = 5 from hk),
        R.require_true rfl, R.ok_bind, show (parse e).start = field e 8 4 from rfl, R.mulU_ok (by omega), R.ok_bind,
        R.addU_ok (by omega), R.ok_bind, List.filter_cons_of_neg (by simp; omega)]
      exact ⟨new, e1, e2.mono (by omega) (by simp only [List.length_cons]; omega)⟩
    · rw [List.filter_cons_of_neg (by simpa using hk)] at hx
      by_cases h0 : Spec.Mbr.kind e = 0
      · obtain ⟨new, e1, e2⟩ := ih hx index acc
        rw [if_pos (show (parse e).kind = 0 from h0), List.filter_cons_of_neg (by simp [h0])]
        exact ⟨new, e1, e2.mono (by omega) (by simp only [List.length_cons]; omega)⟩
      · obtain ⟨new, e1, e2⟩ := ih hx (index + 1) (acc ++ [{ parse e with index := fi + index }])
        rw [if_neg (show ¬ (parse e).kind = 0 from h0), if_neg (show ¬ (parse e).kind = 5 from hk), List.filter_cons_of_pos (by simp; omega)]
        refine ⟨{ parse e with index := fi + index } :: new, by rw [e1]; simp, ?_⟩
        exact (e2.mono (Nat.le_refl _) (by simp only [List.length_cons]; omega)).cons (by omega) (by simp only [List.length_cons]; omega)

/-- Reading a chain. -/
theorem readExtended_chain {U : List Byte} {bps first : Nat} (hb2 : bps ≤ 65535) (hf0 : 0 < first) (hf : first < 2 ^ 63) {off : Nat}
    {offs : List Nat} (hc : Spec.Mbr.Chain U bps first off offs) (fuel fi : Nat) (hfi : fi + 4 * offs.length ≤ 1024)
    (hfuel : offs.length ≤ fuel) (hmul : 4 ≤ fi) (acc : List Entry) :
    ∃ new, readExtended U bps first fuel off fi acc = .ok (acc ++ new) ∧ Adds 4 2048 (offs.flatMap (Spec.Mbr.logical U)) new := by
  have hlen : ∀ o, ((List.range 4).map (Spec.Mbr.entry U o)).length = 4 := fun o => by simp
  induction hc generalizing fuel fi acc with
  | last off hrec hlinks =>
    obtain ⟨fuel, rfl⟩ : ∃ k, fuel = k + 1 := ⟨fuel - 1, by simp only [List.length_cons, List.length_nil] at hfuel; omega⟩
    obtain ⟨r, hr, -, -, hr2⟩ := (readRecordAt_good U off).exists_ok hrec
    obtain ⟨new, e1, e2⟩ := extendedLoop_none (bps := bps) (first := first) (fi := fi) _ (by
      intro y hy
      have := List.filter_eq_nil_iff.1 hlinks y hy
      simpa using this) 0 0 acc
    simp only [List.length_cons, List.length_nil] at hfi
    rw [readExtended, R.require_true (by omega), R.ok_bind]
    obtain ⟨d, hd, hr'⟩ := R.bind_eq_ok.1 hr
    rw [hd, R.ok_bind, hr', R.ok_bind, hr2, e1, R.ok_bind]
    simp only
    rw [if_neg (by simp)]
    refine ⟨new, rfl, ?_⟩
    rw [List.flatMap_cons, List.flatMap_nil, List.append_nil]
    rw [hlen] at e2
    exact e2.mono hmul (by omega)
  | next off e rest hrec hlinks _ ih =>
    obtain ⟨fuel, rfl⟩ : ∃ k, fuel = k + 1 := ⟨fuel - 1, by simp only [List.length_cons] at hfuel; omega⟩
    obtain ⟨r, hr, -, -, hr2⟩ := (readRecordAt_good U off).exists_ok hrec
    obtain ⟨new, e1, e2⟩ := extendedLoop_one (fi := fi) hb2 hf _ e hlinks 0 acc
    simp only [List.length_cons] at hfi hfuel
    obtain ⟨new2, f1, f2⟩ := ih fuel (fi + 4) (by omega) (by omega) (by omega) (acc ++ new)
    rw [readExtended, R.require_true (by omega), R.ok_bind]
    obtain ⟨d, hd, hr'⟩ := R.bind_eq_ok.1 hr
    rw [hd, R.ok_bind, hr', R.ok_bind, hr2, e1, R.ok_bind]
    simp only
    rw [if_pos (by omega), f1]
    refine ⟨new ++ new2, by rw [List.append_assoc], ?_⟩
    rw [List.flatMap_cons]
    rw [hlen] at e2
    exact (e2.mono hmul (by omega)).append f2

/-- A chain without an end is rejected. -/
theorem readExtended_endless {U : List Byte} {bps first : Nat} (hb2 : bps ≤ 65535) (hf0 : 0 < first) (hf : first < 2 ^ 63) (S : Nat → Prop)
    (hS : ∀ o, S o → ∃ e, Spec.Mbr.links U o = [e] ∧ S (first + field e 8 4 * bps)) (fuel fi off : Nat) (hoff : S off)
    (hfuel : 1028 ≤ fi + 4 * fuel) (hfi : fi < 1028) (acc : List Entry) : readExtended U bps first fuel off fi acc = .err := by
  induction fuel generalizing fi off acc with
  | zero => omega
  | succ fuel ih =>
    rw [readExtended]
    by_cases h : 1024 ≤ fi
    · rw [R.require_false (by omega)]; rfl
    · rw [R.require_true h, R.ok_bind]
      have hg := readRecordAt_good U off
      cases hd : readExactAt U off 512 with
      | err => rfl
      | panic => exact absurd hd readExactAt_ne_panic
      | ok d =>
        rw [hd] at hg
        rw [R.ok_bind] at hg ⊢
        cases hr : readRecord d with
        | err => rfl
        | panic => exact absurd hr hg.ne_panic
        | ok r =>
          obtain ⟨-, -, hr2⟩ := hg.of_ok hr
          obtain ⟨e, hlinks, hnext⟩ := hS off hoff
          obtain ⟨new, e1, -⟩ := extendedLoop_one (fi := fi) hb2 hf _ e hlinks 0 acc
          rw [R.ok_bind, hr2, e1, R.ok_bind]
          simp only
          rw [if_pos (by omega)]
          exact ih (fi + 4) _ hnext (by omega) (by omega) _

theorem detectSize_ok {U : List Byte} {lba bps : Nat} (hl : lba < 2 ^ 32) (sizes : List Nat) (hs : sizes.Pairwise (· < ·))
    (hs4 : ∀ b ∈ sizes, b ≤ 4096) (hb : bps ∈ sizes) (hrec : Spec.Mbr.Record U (lba * bps))
    (hmin : ∀ b ∈ sizes, b < bps → bytesAt U (lba * b + 510) 2 ≠ [0x55#8, 0xaa#8]) (buffer : List Byte) (hbl : buffer.length = 2) :
    detectSize U lba sizes buffer = .ok bps := by
  induction sizes generalizing buffer with
  | nil => simp at hb
  | cons b rest ih =>
    rw [detectSize]
    have hb4 := hs4 b (by simp)
    have hle : b ≤ bps := by
      rcases List.mem_cons.1 hb with rfl | h
      · omega
      · exact Nat.le_of_lt ((List.pairwise_cons.1 hs).1 _ h)
    have hm1 : lba * b ≤ lba * bps := Nat.mul_le_mul_left _ hle
    have hm2 : lba * b ≤ 2 ^ 32 * 4096 := Nat.mul_le_mul (by omega) hb4
    have hr := hrec.1
    rw [R.mulU_ok (by omega), R.ok_bind, R.addU_ok (by omega), R.ok_bind]
    have hbuf : (U.drop (lba * b + 510)).take 2 ++ buffer.drop ((U.drop (lba * b + 510)).take 2).length = bytesAt U (lba * b + 510) 2 := by
      have : ((U.drop (lba * b + 510)).take 2).length = 2 := by simp; omega
      rw [this, List.drop_eq_nil_of_le (as := buffer) (by omega), List.append_nil]; rfl
    simp only
    rw [hbuf]
    by_cases he : b = bps
    · subst he
      rw [if_pos hrec.2]; rfl
    · rw [if_neg (hmin b (by simp) (by omega))]
      refine ih (List.pairwise_cons.1 hs).2 (fun x hx => hs4 x (by simp [hx])) ?_ (fun x hx h => hmin x (by simp [hx]) h) _ ?_
      · rcases List.mem_cons.1 hb with h | h
        · exact absurd h.symm he
        · exact h
      · simp [bytesAt]; omega

theorem detect_ok {U : List Byte} {es : List (List Byte)} {x : List Byte} {bps set : Nat}
    (hx : (es.filter fun e => Spec.Mbr.kind e = 5 ∨ Spec.Mbr.kind e = 15) = [x]) (hs : Spec.Mbr.SectorSize U (field x 8 4) bps set)
    (hrec : Spec.Mbr.Record U (field x 8 4 * bps)) : detect U (es.map parse) set = .ok bps := by
  unfold detect
  rcases hs with ⟨rfl, h0, -⟩ | ⟨rfl, h1, h2⟩
  · rw [if_neg h0]
  · have hf : (es.map parse).find? (fun e => decide (e.kind = 5 ∨ e.kind = 15)) = some (parse x) := by
      rw [List.find?_map, ← List.head?_filter]
      have : (fun e : Entry => decide (e.kind = 5 ∨ e.kind = 15)) ∘ parse = fun e => decide (Spec.Mbr.kind e = 5 ∨ Spec.Mbr.kind e = 15) := rfl
      rw [this, hx]; rfl
    rw [if_pos rfl, hf]
    exact detectSize_ok (field_lt x 8 4) _ (by decide) (by decide) h1 hrec h2 _ rfl

theorem detect_sat {U : List Byte} {es : List (List Byte)} {set : Nat} (hset : set ≤ 65535) :
    R.Sat (detect U (es.map parse) set) (fun bps => bps ≤ 65535) := by
  unfold detect
  split
  · split
    · rename_i e he
      obtain ⟨d, -, rfl⟩ := List.mem_map.1 (List.mem_of_find?_eq_some he)
      have key : ∀ (sizes : List Nat) (_ : ∀ b ∈ sizes, b ≤ 4096) (buffer : List Byte),
          R.Sat (detectSize U (parse d).start sizes buffer) (fun bps => bps ≤ 65535) := by
        intro sizes
        induction sizes with
        | nil => exact fun _ _ => Nat.zero_le _
        | cons b rest ih =>
          intro hs buffer
          rw [detectSize]
          have hl : (parse d).start < 2 ^ 32 := field_lt d 8 4
          have hb4 := hs b (by simp)
          have hm : (parse d).start * b ≤ 2 ^ 32 * 4096 := Nat.mul_le_mul (by omega) hb4
          rw [R.mulU_ok (by omega), R.ok_bind, R.addU_ok (by omega), R.ok_bind]
          simp only
          split
          · exact Nat.le_trans hb4 (by decide)
          · exact ih (fun x hx => hs x (by simp [hx])) _
      exact key _ (by decide) _
    · exact Nat.zero_le _
  · exact hset

theorem masterLoop_sat {bps : Nat} (hb : bps ≤ 65535) (es : List (List Byte)) (index ext : Nat) (hext : ext < 2 ^ 49) (acc : List Entry) :
    R.Sat (masterLoop bps (es.map parse) index ext acc) (fun r => r.2 < 2 ^ 49) := by
  induction es generalizing index ext acc with
  | nil => exact hext
  | cons e es ih =>
    rw [List.map_cons, masterLoop]
    split
    · refine R.sat_require.bind fun _ _ => R.sat_require.bind fun _ _ => ?_
      have := start_mul (e := e) hb
      have e0 : (parse e).start = field e 8 4 := rfl
      rw [e0, R.mulU_ok (by omega), R.ok_bind]
      exact ih _ _ this _
    · split
      · exact ih _ _ hext _
      · exact ih _ _ hext _

theorem extendedLoop_sat {bps first fi : Nat} (hb : bps ≤ 65535) (hf : first < 2 ^ 49) (es : List (List Byte)) (index next : Nat) (acc : List Entry) :
    R.Sat (extendedLoop bps first fi (es.map parse) index next acc) (fun _ => True) := by
  induction es generalizing index next acc with
  | nil => trivial
  | cons e es ih =>
    rw [List.map_cons, extendedLoop]
    split
    · exact ih _ _ _
    · split
      · refine R.sat_require.bind fun _ _ => ?_
        have := start_mul (e := e) hb
        have e0 : (parse e).start = field e 8 4 := rfl
        rw [e0, R.mulU_ok (by omega), R.ok_bind, R.addU_ok (by omega), R.ok_bind]
        exact ih _ _ _
      · exact ih _ _ _

theorem readExtended_sat {U : List Byte} {bps first : Nat} (hb2 : bps ≤ 65535) (hf : first < 2 ^ 49) (fuel fi off : Nat)
    (hfuel : 1028 ≤ fi + 4 * fuel) (hfi : fi < 1028) (acc : List Entry) : R.Sat (readExtended U bps first fuel off fi acc) (fun _ => True) := by
  induction fuel generalizing fi off acc with
  | zero => omega
  | succ fuel ih =>
    rw [readExtended]
    refine R.sat_require.bind fun _ h => ?_
    rw [← bind_assoc]
    refine (readRecordAt_good U off).1.bind fun r hr => ?_
    rw [hr.2.2]
    refine (extendedLoop_sat hb2 hf _ 0 0 acc).bind fun r _ => ?_
    split
    · exact ih _ _ (by omega) (by omega) _
    · trivial

end Mbr

namespace Apm

/-- An entry as read. -/
def parse (d : List Byte) : Entry :=
  ⟨fieldBe d 4 4, fieldBe d 8 4, fieldBe d 12 4, (bytesAt d 16 32).takeWhile (· ≠ 0#8), (bytesAt d 48 32).takeWhile (· ≠ 0#8), fieldBe d 88 4⟩

theorem readEntry_good {d : List Byte} (hl : d.length = 512) :
    R.Good (bytesAt d 0 2 = [0x50#8, 0x4d#8]) (readEntry d) (fun e => bytesAt d 0 2 = [0x50#8, 0x4d#8] ∧ e = parse d) := by
  unfold readEntry
  rw [R.require_true hl, R.ok_bind, slice_bytesAt' (n := 2) rfl (by omega), R.ok_bind]
  refine (R.Good.require fun h => h).bind fun _ h => ?_
  rw [u32be_field (by omega), R.ok_bind, u32be_field (by omega), R.ok_bind, u32be_field (by omega), R.ok_bind,
    slice_bytesAt' (n := 32) rfl (by omega), R.ok_bind, slice_bytesAt' (n := 32) rfl (by omega), R.ok_bind, u32be_field (by omega), R.ok_bind]
  exact R.Good.ok ⟨h, rfl⟩

theorem mapLoop_good {U : List Byte} (hU : U.length < 2 ^ 63) (number n k : Nat) (acc : List Entry) :
    R.Good (∀ i, k ≤ i → i < k + n → 512 * (i + 2) ≤ U.length ∧ bytesAt (Spec.Apm.entry U i) 0 2 = [0x50#8, 0x4d#8] ∧
        fieldBe (Spec.Apm.entry U i) 4 4 = number)
      (mapLoop U number n (512 * (k + 1)) acc)
      (fun es => es = acc ++ (List.range' k n).map (fun i => parse (Spec.Apm.entry U i)) ∧
        ∀ i, k ≤ i → i < k + n → 512 * (i + 2) ≤ U.length ∧ bytesAt (Spec.Apm.entry U i) 0 2 = [0x50#8, 0x4d#8] ∧
        fieldBe (Spec.Apm.entry U i) 4 4 = number) := by
  induction n generalizing k acc with
  | zero => exact R.Good.ok ⟨by simp, fun i h1 h2 => by omega⟩
  | succ n ih =>
    rw [mapLoop]
    refine (readExactAt_good.mono (fun h => ?_) (fun _ h => h)).bind fun d hd => ?_
    · have := (h k (by omega) (by omega)).1; omega
    obtain ⟨rfl, hl, hle⟩ := hd
    have hle := hle (by omega)
    refine ((readEntry_good hl).mono (fun h => (h k (by omega) (by omega)).2.1) (fun _ h => h)).bind fun e he => ?_
    obtain ⟨hs, rfl⟩ := he
    refine (R.Good.require fun h => (h k (by omega) (by omega)).2.2).bind fun _ hn => ?_
    rw [R.addU_ok (by omega), R.ok_bind, show 512 * (k + 1) + 512 = 512 * (k + 1 + 1) by omega]
    refine (ih (k + 1) _).mono (fun h i h1 h2 => h i (by omega) (by omega)) (fun es hes => ?_)
    obtain ⟨rfl, h2⟩ := hes
    refine ⟨by rw [List.range'_succ, List.map_cons, List.append_assoc]; rfl, ?_⟩
    intro i h1 h3
    by_cases hi : i = k
    · subst hi
      exact ⟨by omega, hs, hn⟩
    · exact h2 i (by omega) (by omega)

end Apm
end Keramics
