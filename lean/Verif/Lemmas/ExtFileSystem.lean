import Verif.Base.Tactics
import Verif.Model.ExtFileSystem
import Verif.Spec.ExtFileSystem
import Verif.Lemmas.Crc32
import Verif.Lemmas.Ext
import Verif.Lemmas.EqualBlocks
import Verif.Props.Checksums

/-! # Lemmas about ext file systems -/

namespace Keramics.ExtFs
open Keramics.Spec.ExtFs Keramics.Spec.Ext

/-! ## Fields -/

theorem u16_ok {data : List Byte} {off : Nat} (h : off + 2 ≤ data.length) : u16le data off = .ok (field data off 2) := by
  unfold u16le field
  rw [R.slice_ok (by omega) h, R.ok_bind]
  simp

theorem u32_ok {data : List Byte} {off : Nat} (h : off + 4 ≤ data.length) : u32le data off = .ok (field data off 4) := by
  unfold u32le field
  rw [R.slice_ok (by omega) h, R.ok_bind]
  simp

theorem i32_ok {data : List Byte} {off : Nat} (h : off + 4 ≤ data.length) : i32le data off = .ok (signed (field data off 4)) := by
  unfold i32le field signed toSigned
  rw [R.slice_ok (by omega) h, R.ok_bind]
  simp

theorem get_field {data : List Byte} {off : Nat} (h : off < data.length) : ∃ b, R.get data off = .ok b ∧ b.toNat = field data off 1 := by
  refine ⟨data[off], R.get_ok h, ?_⟩
  unfold field
  rw [List.drop_eq_getElem_cons h]
  show _ = leNat [data[off]]
  simp [leNat]

theorem field_lt (data : List Byte) (off n : Nat) : field data off n < 256 ^ n := by
  unfold field
  refine Nat.lt_of_lt_of_le (leNat_lt _) (Nat.pow_le_pow_right (by omega) ?_)
  simp

theorem and_ne_zero (x m : Nat) : x &&& m ≠ 0 ↔ ∃ k, x.testBit k = true ∧ m.testBit k = true := by
  constructor
  · intro h
    by_contra hk
    refine h (Nat.eq_of_testBit_eq fun k => ?_)
    rw [Nat.testBit_and, Nat.zero_testBit]
    by_contra h'
    rw [Bool.not_eq_false, Bool.and_eq_true] at h'
    exact hk ⟨k, h'⟩
  · rintro ⟨k, h1, h2⟩ h
    have := congrArg (Nat.testBit · k) h
    simp [Nat.testBit_and, h1, h2] at this

/-- A test of bits with a mask. -/
theorem mask {m : Nat} (x : Nat) (l : List Nat) (hm : m < 2 ^ 32) (hl : ∀ k, k < 32 → m.testBit k = decide (k ∈ l)) :
    x &&& m ≠ 0 ↔ ∃ k ∈ l, k < 32 ∧ x.testBit k = true := by
  rw [and_ne_zero]
  constructor
  · rintro ⟨k, h1, h2⟩
    have hk : k < 32 := by
      by_contra h
      rw [Nat.testBit_lt_two_pow (Nat.lt_of_lt_of_le hm (Nat.pow_le_pow_right (by omega) (by omega)))] at h2
      cases h2
    exact ⟨k, by rw [hl k hk] at h2; exact of_decide_eq_true h2, hk, h1⟩
  · rintro ⟨k, h1, h2, h3⟩
    exact ⟨k, h3, by rw [hl k h2]; exact decide_eq_true h1⟩

theorem bit {m : Nat} (k : Nat) (x : Nat) (hm : m = 2 ^ k) : x &&& m ≠ 0 ↔ x.testBit k = true := by
  subst hm
  rw [and_ne_zero]
  constructor
  · rintro ⟨j, h1, h2⟩
    rw [Nat.testBit_two_pow] at h2
    rw [of_decide_eq_true h2]; exact h1
  · intro h; exact ⟨k, h, by rw [Nat.testBit_two_pow]; simp⟩

/-- The type in a mode. -/
theorem and_mode {x : Nat} (h : x < 2 ^ 16) : x &&& 0xf000 = x / 2 ^ 12 * 2 ^ 12 := by
  have : x &&& 0xf000 = ((x >>> 12) &&& (2 ^ 4 - 1)) <<< 12 := by
    refine Nat.eq_of_testBit_eq fun i => ?_
    show (x &&& ((2 ^ 4 - 1) <<< 12)).testBit i = _
    rw [Nat.testBit_and, Nat.testBit_shiftLeft, Nat.testBit_shiftLeft, Nat.testBit_and, Nat.testBit_shiftRight]
    by_cases hi : 12 ≤ i
    · rw [Nat.add_sub_cancel' hi]; simp [hi]
    · simp [hi]
  rw [this, Nat.and_two_pow_sub_one_eq_mod, Nat.shiftRight_eq_div_pow, Nat.shiftLeft_eq, Nat.mod_eq_of_lt (by omega)]

theorem mode_eq {x : Nat} (h : x < 2 ^ 16) (c : Nat) : x &&& 0xf000 = c * 2 ^ 12 ↔ x / 2 ^ 12 = c := by
  rw [and_mode h]; omega

theorem or_shift {a b : Nat} (k : Nat) (h : b < 2 ^ k) : (a <<< k) ||| b = b + 2 ^ k * a := by
  rw [Nat.shiftLeft_eq, Nat.mul_comm a, ← Nat.two_pow_add_eq_or_of_lt h, Nat.add_comm]

/-! ## Checksums -/

theorem crc_ok (seed : BitVec 32) (pieces : List (List Byte)) : crc seed pieces = .ok (Spec.crc32Reflected 0x82f63b78#32 seed pieces.flatten) := by
  obtain ⟨c, h, -⟩ := Props.C03_crc32_reflected_chunked 0x82f63b78#32 seed pieces []
  unfold crc
  cases hf : pieces.foldlM Crc32.Ctx.revUpdate (Crc32.Ctx.new 0x82f63b78#32 seed) with
  | ok c' =>
    rw [hf] at h
    simp only [R.ok_bind, R.pure_eq, R.ok.injEq] at h ⊢
    rw [h]
  | err => rw [hf] at h; simp at h
  | panic => rw [hf] at h; simp at h

theorem complement_sum (seed : BitVec 32) (data : List Byte) :
    complement (Spec.crc32Reflected 0x82f63b78#32 seed data) = (sum (~~~ seed) data).toNat := by
  unfold complement sum
  rw [BitVec.not_not, BitVec.toNat_not]

/-! ## Superblock -/

theorem elements_text (data : List Byte) : ByteString.elements data = text data := by
  unfold ByteString.elements text
  induction data with
  | nil => rfl
  | cons b data ih =>
    rw [List.findIdx?_cons, List.takeWhile_cons]
    by_cases h : b = 0#8
    · subst h; rfl
    · have h1 : (b == 0) = false := by simpa using h
      have h2 : decide (b ≠ 0#8) = true := decide_eq_true h
      rw [h1, h2, ← ih]
      cases data.findIdx? (· == 0) <;> simp

theorem super_length {U : List Byte} (h : 2048 ≤ U.length) : (super U).length = 1024 := by
  unfold super; rw [List.length_take, List.length_drop]; omega

/-- What the superblock should be read as. -/
def expected (U : List Byte) : Super :=
  ⟨inodes U, blocks U, blockSize U, perGroup U, inodesPerGroup U, signed (field (super U) 44 4), signed (field (super U) 48 4), inodeSize U,
    field (super U) 92 4, field (super U) 96 4, field (super U) 100 4, field (super U) 260 4, ((super U).drop 104).take 16,
    text (((super U).drop 120).take 16), text (((super U).drop 136).take 64)⟩

theorem blockCount_ok {U : List Byte} (h : 2048 ≤ U.length) : blockCount (super U) (field (super U) 96 4) = .ok (blocks U) := by
  have hl := super_length h
  unfold blockCount blocks incompat
  rw [u32_ok (by omega), R.ok_bind]
  by_cases hb : (field (super U) 96 4).testBit 7 = true
  · have hc := (bit (m := 0x80) 7 (field (super U) 96 4) rfl).2 hb
    rw [if_pos hc, if_pos hb, u32_ok (by omega), R.ok_bind, Nat.or_comm, or_shift 32 (field_lt _ _ _)]
    rfl
  · have hc : ¬ (field (super U) 96 4 &&& 0x80 ≠ 0) := fun h => hb ((bit (m := 0x80) 7 _ rfl).1 h)
    rw [if_neg hc, if_neg hb]
    rfl

theorem checkSuper_ok {U : List Byte} (h : Valid U) : checkSuper (super U) (field (super U) 100 4) = .ok () := by
  have hl := super_length h.length
  unfold checkSuper
  by_cases hc : field (super U) 100 4 &&& 0x400 ≠ 0
  · obtain ⟨h1, h2⟩ := h.superSum ((bit (m := 0x400) 10 _ rfl).1 hc)
    obtain ⟨b, hb, hb'⟩ := get_field (data := super U) (off := 373) (by omega)
    have hb1 : b = 1#8 := BitVec.eq_of_toNat_eq (by rw [hb', h1]; rfl)
    rw [if_pos hc, hb, R.ok_bind, R.require_true hb1, R.ok_bind, u32_ok (by omega), R.ok_bind, R.slice_ok (by omega) (by omega), R.ok_bind, crc_ok, R.ok_bind]
    refine R.require_true (Or.inr ?_)
    rw [h2, complement_sum]
    simp
  · rw [if_neg hc]

theorem readSuper_ok {U : List Byte} (h : Valid U) (hh : Handled U) : readSuper (super U) = .ok (expected U) := by
  have hl := super_length h.length
  have hsome := h.some_
  have hsig : ((super U).drop 56).take (58 - 56) = [0x53#8, 0xef#8] := by
    have h1 := leBytes_leNat (((super U).drop 56).take 2)
    have h2 : leNat (((super U).drop 56).take 2) = 0xef53 := h.signature
    rw [h2, List.length_take, List.length_drop, hl] at h1
    exact h1.symm
  have hexp : (1024 <<< field (super U) 24 4) % 2 ^ 32 = blockSize U := by
    have := h.exponent
    have hp : (2 : Nat) ^ (10 + field (super U) 24 4) < 2 ^ 32 := Nat.pow_lt_pow_right (by omega) (by omega)
    unfold blockSize
    rw [Nat.shiftLeft_eq, show (1024 : Nat) = 2 ^ 10 from rfl, ← Nat.pow_add, Nat.mod_eq_of_lt hp]
  obtain ⟨b, hb, hb'⟩ := get_field (data := super U) (off := 372) (by omega)
  have hrev := h.revision
  have hex := h.exponent
  have hgp := h.groupPos
  have hip := h.inodesPos
  have hfl := hh.flex
  unfold perGroup at hgp
  unfold inodesPerGroup at hip
  unfold readSuper
  rw [R.require_true hl, R.ok_bind, R.slice_ok (by omega) (by omega), R.ok_bind, R.require_true hsig, R.ok_bind, u32_ok (by omega), R.ok_bind,
    R.require_true hrev, R.ok_bind, u32_ok (by omega), R.ok_bind, u32_ok (by omega), R.ok_bind, u32_ok (by omega), R.ok_bind, u32_ok (by omega), R.ok_bind,
    blockCount_ok h.length, R.ok_bind, R.require_true (by omega), R.ok_bind, u32_ok (by omega), R.ok_bind, R.require_true (by omega), R.ok_bind,
    u32_ok (by omega), R.ok_bind, R.require_true (by omega), R.ok_bind, u32_ok (by omega), R.ok_bind, R.require_true (Or.inr (by omega)), R.ok_bind,
    i32_ok (by omega), R.ok_bind, i32_ok (by omega), R.ok_bind, u16_ok (by omega), R.ok_bind, u32_ok (by omega), R.ok_bind,
    R.slice_ok (by omega) (by omega), R.ok_bind, R.slice_ok (by omega) (by omega), R.ok_bind, R.slice_ok (by omega) (by omega), R.ok_bind, hb, R.ok_bind,
    R.require_true (by omega), R.ok_bind, checkSuper_ok h, R.ok_bind, hexp, hh.inodeBytes, elements_text, elements_text]
  rfl

theorem seedOf_ok {U : List Byte} (hh : Handled U) : seedOf (expected U) = .ok (if checksums U then some (~~~ seed U) else none) := by
  unfold seedOf checksums roCompat
  show (if field (super U) 100 4 &&& 0x400 ≠ 0 then _ else _) = _
  by_cases hc : field (super U) 100 4 &&& 0x400 ≠ 0
  · rw [if_pos hc, if_pos ((bit (m := 0x400) 10 _ rfl).1 hc), crc_ok, R.ok_bind, hh.uuid]
    unfold uuidSum sum
    simp [expected]
  · rw [if_neg hc, if_neg (fun h => hc ((bit (m := 0x400) 10 _ rfl).2 h))]

theorem version_ok (U : List Byte) : version (expected U) = 4 ↔ Ext4 U := by
  have h1 : field (super U) 92 4 &&& 0x200 ≠ 0 ↔ compat U 9 = true := bit 9 _ rfl
  have h2 : field (super U) 96 4 &&& 0x1f7c0 ≠ 0 ↔ ∃ k ∈ [6, 7, 8, 9, 10, 12, 13, 14, 15, 16], incompat U k = true := by
    rw [mask _ [6, 7, 8, 9, 10, 12, 13, 14, 15, 16] (by omega) (by decide)]
    refine exists_congr fun k => and_congr_right fun hk => ?_
    refine ⟨fun h => h.2, fun h => ⟨?_, h⟩⟩
    revert hk; simp; omega
  have h3 : field (super U) 100 4 &&& 0x378 ≠ 0 ↔ ∃ k ∈ [3, 4, 5, 6, 8, 9], roCompat U k = true := by
    rw [mask _ [3, 4, 5, 6, 8, 9] (by omega) (by decide)]
    refine exists_congr fun k => and_congr_right fun hk => ?_
    refine ⟨fun h => h.2, fun h => ⟨?_, h⟩⟩
    revert hk; simp; omega
  unfold version Ext4
  rw [← h1, ← h2, ← h3]
  show (if _ then _ else _) = 4 ↔ _
  by_cases hc : field (super U) 92 4 &&& 0x200 ≠ 0 ∨ field (super U) 96 4 &&& 0x1f7c0 ≠ 0 ∨ field (super U) 100 4 &&& 0x378 ≠ 0
  · exact iff_of_true (if_pos hc) hc
  · refine iff_of_false ?_ hc
    intro h
    have h' : (if field (super U) 92 4 &&& 0x4 ≠ 0 ∨ field (super U) 96 4 &&& 0xc ≠ 0 then 3 else 2) = 4 := (if_neg hc).symm.trans h
    split at h' <;> cases h'

theorem unsupported_ok {U : List Byte} (hh : Handled U) : unsupported (expected U) = false := by
  unfold unsupported
  rw [decide_eq_false_iff_not]
  show ¬ (field (super U) 96 4 &&& _ ≠ 0)
  rw [mask _ [0, 4, 5, 8, 11, 12, 14, 18, 19, 20, 21, 22, 23, 24, 25, 26, 27, 28, 29, 30, 31] (by omega) (by decide)]
  rintro ⟨k, hk, -, h⟩
  have := hh.features k h
  revert hk this
  simp only [List.mem_cons, List.not_mem_nil, or_false]
  omega

theorem descriptorSize_ok {U : List Byte} (hh : Handled U) : descriptorSize (expected U) = Spec.ExtFs.descriptorSize U := by
  rw [hh.descriptorBytes]
  unfold descriptorSize
  show (if field (super U) 96 4 &&& 0x80 ≠ 0 then 64 else 32) = _
  by_cases hc : field (super U) 96 4 &&& 0x80 ≠ 0
  · rw [if_pos hc]; unfold incompat; rw [if_pos ((bit (m := 0x80) 7 _ rfl).1 hc)]
  · rw [if_neg hc]; unfold incompat; rw [if_neg (fun h => hc ((bit (m := 0x80) 7 _ rfl).2 h))]

theorem hasMeta_ok {U : List Byte} (hh : Handled U) : hasMeta (expected U) = false := by
  unfold hasMeta
  rw [decide_eq_false_iff_not]
  show ¬ (field (super U) 96 4 &&& 0x10 ≠ 0)
  rw [bit 4 _ (show (0x10 : Nat) = 2 ^ 4 from rfl)]
  intro h
  have := hh.features 4 h
  simp at this

/-! ## Group descriptors -/

/-- The block number of the inode table in a descriptor. -/
def tableIn (version : Nat) (d : List Byte) : Nat := field d 8 4 + if version = 4 ∧ 44 ≤ d.length then 2 ^ 32 * field d 40 4 else 0

theorem readDescriptor_ok {version : Nat} {d : List Byte} (h : sizeSupported version d.length) :
    readDescriptor version d = .ok (tableIn version d, field d 30 2) := by
  have hl : 32 ≤ d.length := by rcases h with h | h <;> omega
  unfold readDescriptor
  rw [R.require_true h, R.ok_bind, u32_ok (by omega), R.ok_bind]
  have hu : upperTable version d (field d 8 4) = .ok (tableIn version d) := by
    unfold upperTable tableIn
    by_cases hc : version = 4 ∧ 44 ≤ d.length
    · rw [if_pos hc, if_pos hc, u32_ok (by omega), R.ok_bind, Nat.or_comm, or_shift 32 (field_lt _ _ _)]; rfl
    · rw [if_neg hc, if_neg hc]; rfl
  rw [hu, R.ok_bind, u16_ok (by omega), R.ok_bind]
  rfl

theorem field_replicate (n off m : Nat) : field (List.replicate n 0#8) off m = 0 := by
  unfold field
  rw [List.drop_replicate, List.take_replicate]
  generalize min m (n - off) = k
  induction k with
  | zero => rfl
  | succ k ih => rw [List.replicate_succ]; simp [leNat, ih]

theorem tableIn_zero (version n : Nat) : tableIn version (List.replicate n 0#8) = 0 := by
  unfold tableIn
  rw [field_replicate, field_replicate]
  simp

theorem tableLoop_ok {version size : Nat} {seed : Option (BitVec 32)} (n : Nat) {group : Nat} {data : List Byte} (hs : sizeSupported version size)
    (hl : n * size ≤ data.length) (hg : group + n ≤ 2 ^ 32)
    (hc : ∀ s, seed = some s → ∀ j, j < n → field ((data.drop (j * size)).take size) 30 2 =
      (sum (~~~ s) (leBytes 4 (group + j) ++ ((data.drop (j * size)).take size).take 30 ++ [0#8, 0#8] ++ ((data.drop (j * size)).take size).drop 32)).toNat % 2 ^ 16) :
    ∃ l, tableLoop version seed size 0 n group data = .ok l ∧
      ((∀ j, j < n → tableIn version ((data.drop (j * size)).take size) ≠ 0) → l = (List.range n).map fun j => tableIn version ((data.drop (j * size)).take size)) := by
  induction n generalizing group data with
  | zero => exact ⟨[], rfl, fun _ => rfl⟩
  | succ n ih =>
    have hsz : 32 ≤ size := by rcases hs with h | h <;> omega
    have hl1 : size ≤ data.length := by rw [Nat.succ_mul] at hl; omega
    have hlen : (data.take size).length = size := by rw [List.length_take]; omega
    unfold tableLoop
    rw [R.slice_ok (by omega) hl1, R.ok_bind]
    simp only [List.drop_zero, Nat.sub_zero]
    by_cases hz : data.take size = List.replicate size 0#8
    · rw [if_pos hz]
      refine ⟨[], rfl, fun h => absurd ?_ (h 0 (by omega))⟩
      rw [Nat.zero_mul, List.drop_zero, hz, tableIn_zero]
    · rw [if_neg hz, readDescriptor_ok (by rw [hlen]; exact hs), R.ok_bind]
      have hd : ∀ j, (data.drop size).drop (j * size) = data.drop ((j + 1) * size) := by
        intro j; rw [List.drop_drop]; congr 1; rw [Nat.succ_mul]; omega
      obtain ⟨l, h1, h2⟩ := ih (group := group + 1) (data := data.drop size) (by rw [List.length_drop, ]; rw [Nat.succ_mul] at hl; omega) (by omega)
        (by
          intro s hs j hj
          rw [hd, show group + 1 + j = group + (j + 1) by omega]
          exact hc s hs (j + 1) (by omega))
      have hchk : (do let number ← groupNumber seed 0 group; checkDescriptor seed number (data.take size) (field (data.take size) 30 2)) = R.ok () := by
        cases seed with
        | none => rfl
        | some s =>
          have hcs := hc s rfl 0 (by omega)
          rw [Nat.zero_mul, List.drop_zero, Nat.add_zero] at hcs
          unfold groupNumber checkDescriptor
          simp only
          rw [R.addU_ok (by omega), R.ok_bind, R.slice_ok (by omega) (by omega), R.ok_bind, R.slice_ok (by omega) (by omega), R.ok_bind, crc_ok, R.ok_bind]
          refine R.require_true (Or.inr ?_)
          rw [complement_sum, hcs, Nat.zero_add]
          simp [List.take_of_length_le]
      refine ⟨tableIn version (data.take size) :: l, ?_, fun h => ?_⟩
      · obtain ⟨number, e1, e2⟩ := R.bind_eq_ok.1 hchk
        rw [e1, R.ok_bind, e2, R.ok_bind, h1, R.ok_bind]
        rfl
      · rw [h2 (fun j hj => by rw [hd]; exact h (j + 1) (by omega)), List.range_succ_eq_map, List.map_cons, List.map_map, Nat.zero_mul, List.drop_zero]
        congr 1
        refine List.map_congr_left fun j _ => ?_
        rw [hd]; rfl

theorem sizes_ok {U : List Byte} (hh : Handled U) : sizeSupported (version (expected U)) (Spec.ExtFs.descriptorSize U) := by
  rw [hh.descriptorBytes]
  by_cases h : incompat U 7 = true
  · rw [if_pos h]
    refine Or.inr ⟨(version_ok U).2 (Or.inr (Or.inl ⟨7, by simp, h⟩)), rfl⟩
  · rw [if_neg h]; exact Or.inl rfl

theorem tableIn_ok {U : List Byte} (hh : Handled U) {g : Nat} (hl : (descriptor U 0 g).length = Spec.ExtFs.descriptorSize U) :
    tableIn (version (expected U)) (descriptor U 0 g) = Spec.ExtFs.inodeTable U g := by
  unfold tableIn Spec.ExtFs.inodeTable
  rw [hl, hh.descriptorBytes]
  by_cases h : incompat U 7 = true
  · rw [if_pos h, if_pos h, if_pos ⟨(version_ok U).2 (Or.inr (Or.inl ⟨7, by simp, h⟩)), by omega⟩]
  · rw [if_neg h, if_neg h, if_neg (by omega)]

/-- The table of a group is read, and the one of the first group has the inode tables. -/
theorem readTable_ok {U : List Byte} (h : Valid U) (hh : Handled U) {k : Nat} (hk : k < groups U) (ht : HasTable U k) :
    ∃ l, readTable U (version (expected U)) (if checksums U then some (~~~ seed U) else none) (Spec.ExtFs.descriptorSize U) 0 (groups U)
        ((firstBlock U + k * perGroup U + 1) * blockSize U) = .ok l ∧
      (k = 0 → l = (List.range (groups U)).map (Spec.ExtFs.inodeTable U)) := by
  obtain ⟨hin, hsum⟩ := h.tables k hk ht
  have hds : Spec.ExtFs.descriptorSize U ≤ 64 := by rw [hh.descriptorBytes]; split <;> omega
  have hm := hh.many.1
  have hmul : groups U * Spec.ExtFs.descriptorSize U ≤ 2 ^ 30 * 64 := Nat.mul_le_mul hm hds
  have hd : ∀ j, j < groups U → ((((U.drop ((firstBlock U + k * perGroup U + 1) * blockSize U)).take (groups U * Spec.ExtFs.descriptorSize U)).drop
      (j * Spec.ExtFs.descriptorSize U)).take (Spec.ExtFs.descriptorSize U)) = descriptor U k j ∧ (descriptor U k j).length = Spec.ExtFs.descriptorSize U := by
    intro j hj
    have hle : (j + 1) * Spec.ExtFs.descriptorSize U ≤ groups U * Spec.ExtFs.descriptorSize U := Nat.mul_le_mul_right _ hj
    rw [Nat.succ_mul] at hle
    constructor
    · unfold descriptor
      rw [List.drop_take, List.take_take, List.drop_drop, Nat.min_eq_left (by omega)]
    · unfold descriptor
      rw [List.length_take, List.length_drop]; omega
  unfold readTable
  rw [R.mulU_ok (by omega), R.ok_bind, readExactAt_ok hin, R.ok_bind]
  obtain ⟨l, h1, h2⟩ := tableLoop_ok (version := version (expected U)) (size := Spec.ExtFs.descriptorSize U)
    (seed := if checksums U then some (~~~ seed U) else none) (groups U) (group := 0)
    (data := (U.drop ((firstBlock U + k * perGroup U + 1) * blockSize U)).take (groups U * Spec.ExtFs.descriptorSize U))
    (sizes_ok hh) (by rw [List.length_take, List.length_drop]; omega) (by omega) (by
      intro s hs j hj
      by_cases hc : checksums U = true
      · rw [if_pos hc, Option.some.injEq] at hs
        subst hs
        rw [(hd j hj).1, hsum hc j hj, BitVec.not_not, Nat.zero_add]
        rfl
      · rw [if_neg hc] at hs; cases hs)
  refine ⟨l, h1, ?_⟩
  rintro rfl
  have he : ∀ j, j < groups U → tableIn (version (expected U)) (((((U.drop ((firstBlock U + 0 * perGroup U + 1) * blockSize U)).take
      (groups U * Spec.ExtFs.descriptorSize U)).drop (j * Spec.ExtFs.descriptorSize U)).take (Spec.ExtFs.descriptorSize U))) = Spec.ExtFs.inodeTable U j := by
    intro j hj
    rw [(hd j hj).1, tableIn_ok hh (hd j hj).2]
  rw [h2 (fun j hj => by rw [he j hj]; have := (h.inodeTables j hj).1; omega)]
  exact List.map_congr_left fun j hj => he j (List.mem_range.1 hj)

/-! ## Block groups -/

/-- A power is multiplied while it is less than the number of the group, which does not overflow. -/
theorem nextPower_ok {factor a number top : Nat} (hn : number ≤ 2 ^ 30) (hf : 1 ≤ factor) (ht : 2 ^ 30 ≤ factor ^ top) (ht' : factor ^ top < 2 ^ 32) :
    ∃ b, nextPower factor (factor ^ a) number = .ok (factor ^ b) := by
  unfold nextPower
  by_cases h : factor ^ a < number
  · rw [if_pos h]
    have ha : a < top := by
      by_contra hle
      have := Nat.pow_le_pow_right hf (Nat.le_of_not_lt hle)
      omega
    have hp : factor ^ (a + 1) ≤ factor ^ top := Nat.pow_le_pow_right hf ha
    rw [Nat.pow_succ] at hp
    exact ⟨a + 1, by rw [R.mulU_ok (by omega), Nat.pow_succ]⟩
  · rw [if_neg h]; exact ⟨a, rfl⟩

theorem blockSize_bounds {U : List Byte} (h : Valid U) : 1024 ≤ blockSize U ∧ blockSize U ≤ 2 ^ 16 := by
  have := h.exponent
  unfold blockSize
  constructor
  · show 2 ^ 10 ≤ _
    exact Nat.pow_le_pow_right (by omega) (by omega)
  · exact Nat.pow_le_pow_right (by omega) (by omega)

theorem hasSuper_table {U : List Byte} (hh : Handled U) {g : Groups} {a b c : Nat} (h3 : g.power3 = 3 ^ a) (h5 : g.power5 = 5 ^ b) (h7 : g.power7 = 7 ^ c)
    (h : hasSuper (expected U) g = true) : HasTable U g.number := by
  unfold hasSuper at h
  unfold HasTable
  by_cases h0 : g.number = 0
  · exact Or.inl h0
  rw [if_neg h0] at h
  refine Or.inr ?_
  by_cases hr : roCompat U 0 = true
  · have hr' : ¬ (field (super U) 100 4 &&& 0x1 = 0) := (bit 0 _ rfl).2 hr
    have h := (if_neg hr').symm.trans h
    by_cases hc : compat U 9 = true
    · have hc' : field (super U) 92 4 &&& 0x200 ≠ 0 := (bit 9 _ rfl).2 hc
      exact absurd ((if_pos hc').symm.trans h) (by simp)
    · have hc' : ¬ (field (super U) 92 4 &&& 0x200 ≠ 0) := fun h => hc ((bit 9 _ rfl).1 h)
      have h := of_decide_eq_true ((if_neg hc').symm.trans h)
      refine ⟨by simpa using hc, Or.inr ?_⟩
      rcases h with h | h | h | h
      · exact Or.inl h
      · exact Or.inr ⟨a, Or.inl (h.trans h3)⟩
      · exact Or.inr ⟨b, Or.inr (Or.inl (h.trans h5))⟩
      · exact Or.inr ⟨c, Or.inr (Or.inr (h.trans h7))⟩
  · refine ⟨?_, Or.inl (by simpa using hr)⟩
    by_contra hc
    exact hr (hh.sparse (by simpa using hc))

/-- The variables of the loop before group `k`. -/
structure GroupsOk (U : List Byte) (k : Nat) (g : Groups) : Prop where
  number : g.number = k
  offset : g.offset = k * (perGroup U * blockSize U)
  power3 : ∃ a, g.power3 = 3 ^ a
  power5 : ∃ a, g.power5 = 5 ^ a
  power7 : ∃ a, g.power7 = 7 ^ a
  tables : g.tables = if k = 0 then [] else (List.range (groups U)).map (Spec.ExtFs.inodeTable U)

/-- Groups start inside the volume. -/
theorem group_inside {U : List Byte} (h : Valid U) {k : Nat} (hk : k < groups U) : k * (perGroup U * blockSize U) < U.length := by
  have hg := h.groupPos
  have hs := h.some_
  unfold groups at hk
  have h1 : k * perGroup U < blocks U := by
    have h2 : (k + 1) * perGroup U ≤ blocks U - firstBlock U + perGroup U - 1 := (Nat.le_div_iff_mul_le hg).1 hk
    rw [Nat.succ_mul] at h2
    omega
  have hb := (blockSize_bounds h).1
  have h3 : k * perGroup U * blockSize U < blocks U * blockSize U := Nat.mul_lt_mul_of_pos_right h1 (by omega)
  have := h.complete
  rw [Nat.mul_assoc] at h3
  omega

theorem tableOffset_ok {U : List Byte} (h : Valid U) (hU : U.length < 2 ^ 63) {k : Nat} (hk : k < groups U) {g : Groups} (ho : g.offset = k * (perGroup U * blockSize U))
    (hs : hasSuper (expected U) g = true) : tableOffset (expected U) g = .ok ((firstBlock U + k * perGroup U + 1) * blockSize U) := by
  have hi := group_inside h hk
  have hb := (blockSize_bounds h).2
  have h1 : add1024 (expected U) g.offset = .ok (g.offset + firstBlock U * blockSize U) := by
    unfold add1024
    show (if blockSize U = 1024 then _ else _) = _
    rw [h.first]
    by_cases hc : blockSize U = 1024
    · rw [if_pos hc, if_pos hc, R.addU_ok (by omega), hc, Nat.one_mul]
    · rw [if_neg hc, if_neg hc, Nat.zero_mul]; rfl
  have hf : firstBlock U * blockSize U ≤ 1 * blockSize U := Nat.mul_le_mul_right _ (by rw [h.first]; split <;> omega)
  unfold tableOffset
  rw [h1, R.ok_bind, hs]
  unfold addBlock
  rw [if_pos rfl]
  show R.addU 64 _ (blockSize U) = _
  rw [R.addU_ok (by omega), ho, Nat.add_mul, Nat.add_mul, Nat.one_mul, Nat.mul_assoc, Nat.add_comm (firstBlock U * blockSize U)]

theorem groupStep_ok {U : List Byte} (h : Valid U) (hh : Handled U) (hU : U.length < 2 ^ 63) {k : Nat} (hk : k < groups U) {g : Groups} (hg : GroupsOk U k g) :
    ∃ g', groupStep U (expected U) (if checksums U then some (~~~ seed U) else none) 0 g = .ok g' ∧ GroupsOk U (k + 1) g' := by
  have hm := hh.many.1
  have hi := group_inside h hk
  have hb := blockSize_bounds h
  obtain ⟨a, ha⟩ := hg.power3
  obtain ⟨b, hb'⟩ := hg.power5
  obtain ⟨c, hc⟩ := hg.power7
  have hn := hg.number
  obtain ⟨a', ha'⟩ := nextPower_ok (factor := 3) (a := a) (number := g.number) (top := 19) (by omega) (by omega) (by decide) (by decide)
  obtain ⟨b', hb''⟩ := nextPower_ok (factor := 5) (a := b) (number := g.number) (top := 13) (by omega) (by omega) (by decide) (by decide)
  obtain ⟨c', hc'⟩ := nextPower_ok (factor := 7) (a := c) (number := g.number) (top := 11) (by omega) (by omega) (by decide) (by decide)
  have hpb : perGroup U * blockSize U < 2 ^ 48 := by
    have : perGroup U < 2 ^ 32 := field_lt _ _ _
    calc perGroup U * blockSize U ≤ perGroup U * 2 ^ 16 := Nat.mul_le_mul_left _ hb.2
      _ < 2 ^ 32 * 2 ^ 16 := by omega
  unfold groupStep
  rw [ha, ha', R.ok_bind, hb', hb'', R.ok_bind, hc, hc', R.ok_bind]
  simp only
  generalize hg' : ({ g with power3 := 3 ^ a', power5 := 5 ^ b', power7 := 7 ^ c' } : Groups) = g'
  have hn' : g'.number = k := by subst hg'; exact hn
  have ho' : g'.offset = k * (perGroup U * blockSize U) := by subst hg'; exact hg.offset
  have h3 : g'.power3 = 3 ^ a' := by subst hg'; rfl
  have h5 : g'.power5 = 5 ^ b' := by subst hg'; rfl
  have h7 : g'.power7 = 7 ^ c' := by subst hg'; rfl
  have ht' : g'.tables = if k = 0 then [] else (List.range (groups U)).map (Spec.ExtFs.inodeTable U) := by subst hg'; exact hg.tables
  have hskip : skipSuper (expected U) g' = .ok () := by
    unfold skipSuper
    split
    · unfold superOffset
      split
      · rw [R.addU_ok (by omega)]; rfl
      · rfl
    · rfl
  rw [hskip, R.ok_bind]
  have htab : ∃ g'', groupTables U (expected U) (if checksums U then some (~~~ seed U) else none) 0 g' = .ok g'' ∧ g''.number = k ∧
      g''.offset = k * (perGroup U * blockSize U) ∧ g''.power3 = 3 ^ a' ∧ g''.power5 = 5 ^ b' ∧ g''.power7 = 7 ^ c' ∧
      g''.tables = (List.range (groups U)).map (Spec.ExtFs.inodeTable U) := by
    unfold groupTables
    rw [if_pos (Or.inl (hasMeta_ok hh))]
    unfold mainTable
    by_cases hs : hasSuper (expected U) g' = true
    · rw [if_pos hs, tableOffset_ok h hU hk ho' hs, R.ok_bind, descriptorSize_ok hh, hasMeta_ok hh]
      have hcount : groupCount (expected U) % 2 ^ 32 = groups U := by
        have : groupCount (expected U) = groups U := hh.count
        rw [this]; omega
      have hht := hasSuper_table hh h3 h5 h7 hs
      rw [hn'] at hht
      obtain ⟨l, h1, h2⟩ := readTable_ok h hh hk hht
      rw [if_neg (show ¬ (false = true) by simp), hcount, h1, R.ok_bind]
      by_cases hk0 : k = 0
      · rw [if_pos (by omega)]
        refine ⟨_, rfl, hn', ho', h3, h5, h7, ?_⟩
        show g'.tables ++ l = _
        rw [ht', if_pos hk0, h2 hk0, List.nil_append]
      · rw [if_neg (by omega)]
        exact ⟨_, rfl, hn', ho', h3, h5, h7, by rw [ht', if_neg hk0]⟩
    · rw [if_neg hs]
      have hk0 : k ≠ 0 := by
        rintro rfl
        exact hs (by unfold hasSuper; rw [if_pos hn'])
      exact ⟨_, rfl, hn', ho', h3, h5, h7, by rw [ht', if_neg hk0]⟩
  obtain ⟨g'', e, e1, e2, e3, e4, e5, e6⟩ := htab
  rw [e, R.ok_bind, e1, R.addU_ok (by omega), R.ok_bind, e2]
  have hadd : R.addU 64 (k * (perGroup U * blockSize U)) ((expected U).blocksPerGroup * (expected U).blockSize) = .ok ((k + 1) * (perGroup U * blockSize U)) := by
    show R.addU 64 (k * (perGroup U * blockSize U)) (perGroup U * blockSize U) = _
    rw [R.addU_ok (by omega), Nat.succ_mul]
  rw [hadd, R.ok_bind]
  exact ⟨_, rfl, rfl, rfl, ⟨a', e3⟩, ⟨b', e4⟩, ⟨c', e5⟩, by simp [e6]⟩

theorem groupLoop_ok {U : List Byte} (h : Valid U) (hh : Handled U) (hU : U.length < 2 ^ 63) (n : Nat) {k : Nat} (hk : k + n ≤ groups U) {g : Groups} (hg : GroupsOk U k g) :
    ∃ g', groupLoop U (expected U) (if checksums U then some (~~~ seed U) else none) 0 n g = .ok g' ∧ GroupsOk U (k + n) g' := by
  induction n generalizing k g with
  | zero => exact ⟨g, rfl, hg⟩
  | succ n ih =>
    unfold groupLoop
    obtain ⟨g1, e1, h1⟩ := groupStep_ok h hh hU (by omega) hg
    rw [e1, R.ok_bind]
    obtain ⟨g2, e2, h2⟩ := ih (k := k + 1) (by omega) h1
    exact ⟨g2, e2, by rw [show k + (n + 1) = k + 1 + n by omega]; exact h2⟩

/-! ## The inode table -/

/-- Groups and the block numbers of their inode tables. -/
def numbered (k : Nat) (l : List Nat) : List (Nat × Nat) := (List.range l.length).map fun j => (k + j, l.getD j 0)

theorem numbered_snoc (l : List Nat) (t : Nat) : numbered 0 (l ++ [t]) = numbered 0 l ++ [(l.length, t)] := by
  unfold numbered
  rw [List.length_append, List.length_singleton, List.range_succ, List.map_append]
  congr 1
  · refine List.map_congr_left fun j hj => ?_
    rw [List.mem_range] at hj
    simp [List.getElem?_append_left hj]
  · simp

theorem insertLoop_ok {size total : Nat} (ts : List Nat) {l : List Nat} {t : BlockTree.Tree Nat} (hh : BlockTree.Holds t (BlockTree.blocksOf size (numbered 0 l)))
    (hb : BlockTree.BlockOk t) (hs : size = t.leafSize * t.perNode) (hd : t.dataSize = total) (ht : (l.length + ts.length) * size = total) (h64 : total < 2 ^ 63) (hsz : size < 2 ^ 63) :
    ∃ t', insertLoop size ts (l.length * size) t = .ok t' ∧ BlockTree.Holds t' (BlockTree.blocksOf size (numbered 0 (l ++ ts))) ∧ t'.dataSize = total := by
  induction ts generalizing l t with
  | nil => exact ⟨t, rfl, by rw [List.append_nil]; exact hh, hd⟩
  | cons x ts ih =>
    have hle : (l.length + 1) * size ≤ (l.length + (x :: ts).length) * size := Nat.mul_le_mul_right _ (by simp)
    rw [Nat.succ_mul] at hle
    unfold insertLoop
    rcases BlockTree.insert_number hh hb (b := l.length) (v := x) hs (by omega) with ⟨-, t', e, h1, h2, d1, d2, d3⟩ | ⟨hc, -⟩
    · rw [e, R.ok_bind, R.addU_ok (by omega), R.ok_bind]
      have := ih (l := l ++ [x]) (t := t') (by rw [numbered_snoc]; exact h1) h2 (by rw [d2, d3]; exact hs) (by rw [d1]; exact hd)
        (by rw [← ht]; simp only [List.length_append, List.length_cons, List.length_nil]; congr 1; omega)
      rw [List.length_append, List.length_singleton, Nat.succ_mul, List.append_assoc, List.singleton_append] at this
      exact this
    · refine absurd ⟨by omega, ?_⟩ hc
      unfold numbered
      rw [List.map_map, List.mem_map]
      rintro ⟨j, hj, e⟩
      rw [List.mem_range] at hj
      simp at e
      omega

theorem inodeSize_bounds {U : List Byte} (h : Valid U) : 128 ≤ inodeSize U ∧ inodeSize U ≤ 32768 := by
  have := h.inodeSizes
  simp only [List.mem_cons, List.not_mem_nil, or_false] at this
  omega

/-- A file system that was opened: its inode table has the inode tables of all groups. -/
structure FsOk (U : List Byte) (fs : Fs) : Prop where
  super : fs.super = expected U
  seed : fs.seed = if checksums U then some (~~~ seed U) else none
  table : ∀ n, 1 ≤ n → n ≤ inodes U → BlockTree.get fs.tree ((n - 1) * inodeSize U) = .ok (some (Spec.ExtFs.inodeTable U ((n - 1) / inodesPerGroup U)))

theorem makeTable_ok {U : List Byte} (h : Valid U) (hh : Handled U) :
    ∃ t, makeTable (expected U) ((List.range (groups U)).map (Spec.ExtFs.inodeTable U)) = .ok t ∧
      ∀ n, 1 ≤ n → n ≤ inodes U → BlockTree.get t ((n - 1) * inodeSize U) = .ok (some (Spec.ExtFs.inodeTable U ((n - 1) / inodesPerGroup U))) := by
  have hip := h.inodesPos
  have his := inodeSize_bounds h
  have hm := hh.many.2
  have hip32 : inodesPerGroup U < 2 ^ 32 := field_lt _ _ _
  have hsz : inodesPerGroup U * inodeSize U < 2 ^ 63 := by
    calc inodesPerGroup U * inodeSize U ≤ inodesPerGroup U * 32768 := Nat.mul_le_mul_left _ his.2
      _ < 2 ^ 63 := by omega
  have hpos : 0 < inodesPerGroup U * inodeSize U := Nat.mul_pos hip (by omega)
  have hlen : ((List.range (groups U)).map (Spec.ExtFs.inodeTable U)).length = groups U := by simp
  unfold makeTable
  rw [if_pos (show 0 < (expected U).inodesPerGroup from hip)]
  unfold inodeTable
  show ∃ t, (do
    let size ← R.mulU 64 _ (inodesPerGroup U * inodeSize U)
    insertLoop (inodesPerGroup U * inodeSize U) _ 0 (BlockTree.new size (inodesPerGroup U) (inodeSize U))) = R.ok t ∧ _
  rw [hlen, R.mulU_ok (by omega), R.ok_bind]
  obtain ⟨t, h1, h2, h3⟩ := insertLoop_ok (size := inodesPerGroup U * inodeSize U) (total := groups U * (inodesPerGroup U * inodeSize U))
    ((List.range (groups U)).map (Spec.ExtFs.inodeTable U)) (l := []) (t := BlockTree.new (groups U * (inodesPerGroup U * inodeSize U)) (inodesPerGroup U) (inodeSize U))
    (BlockTree.new_holds _ _ _ (by omega)) (BlockTree.new_blockOk hip (by omega) (by omega)) (Nat.mul_comm _ _) rfl (by simp) (by omega) hsz
  rw [List.length_nil, Nat.zero_mul] at h1
  refine ⟨t, h1, fun n hn1 hn2 => ?_⟩
  have hcnt := h.inodeCount
  have hlt : (n - 1) * inodeSize U < t.dataSize := by
    rw [h3, ← Nat.mul_assoc]
    exact Nat.mul_lt_mul_of_pos_right (by omega) (by omega)
  obtain ⟨a, e1, e2, -⟩ := BlockTree.get_number h2 hpos hlt
  rw [e1, (e2 (Spec.ExtFs.inodeTable U ((n - 1) / inodesPerGroup U))).2]
  have hdiv : (n - 1) * inodeSize U / (inodesPerGroup U * inodeSize U) = (n - 1) / inodesPerGroup U := Nat.mul_div_mul_right _ _ (by omega)
  have hg : (n - 1) / inodesPerGroup U < groups U := (Nat.div_lt_iff_lt_mul hip).2 (by omega)
  rw [hdiv]
  unfold numbered
  rw [List.mem_map]
  refine ⟨(n - 1) / inodesPerGroup U, by simpa using hg, ?_⟩
  simp [hg]

/-- Opening a volume succeeds. -/
theorem openFs_ok {U : List Byte} (h : Valid U) (hh : Handled U) (hU : U.length < 2 ^ 63) : ∃ fs, openFs U = .ok fs ∧ FsOk U fs := by
  have hl := h.length
  have hmeta : metaStart (expected U) = .ok 0 := by unfold metaStart; rw [hasMeta_ok hh]; rfl
  have hcount : groupCount (expected U) = groups U := hh.count
  have hpos : 0 < groups U := by
    have := h.groupPos
    have := h.some_
    unfold groups
    exact Nat.div_pos (by omega) (by omega)
  obtain ⟨g, e, hg⟩ := groupLoop_ok h hh hU (groups U) (k := 0) (g := ⟨0, 0, 3, 5, 7, 0, []⟩) (by omega)
    ⟨rfl, by simp, ⟨1, rfl⟩, ⟨1, rfl⟩, ⟨1, rfl⟩, by simp⟩
  have ht := hg.tables
  rw [if_neg (by omega)] at ht
  obtain ⟨t, e2, ht2⟩ := makeTable_ok h hh
  have hs : (U.drop 1024).take 1024 = super U := rfl
  unfold openFs
  rw [readExactAt_ok (by omega), R.ok_bind, hs, readSuper_ok h hh, R.ok_bind, seedOf_ok hh, R.ok_bind, hmeta, R.ok_bind, hcount, e, R.ok_bind, ht, e2, R.ok_bind]
  exact ⟨_, rfl, rfl, rfl, ht2⟩

/-! ## Inodes -/

theorem field_drop (d : List Byte) (k off n : Nat) : field (d.drop k) off n = field d (k + off) n := by
  unfold field; rw [List.drop_drop]

/-- A time that is set if it is after the epoch. -/
def after (t : Int × Nat) : Option (Int × Nat) := if 0 < t.1 then some t else none

theorem posix_value (t : Int) : (posix t).value = after (t, 0) := by
  unfold posix after
  by_cases h : 0 < t <;> simp [h, Time.value]

/-- What an inode should be read as. -/
structure InodeOk (U d : List Byte) (attributes : List Attribute) (i : Inode) : Prop where
  mode : i.mode = field d 0 2
  owner : i.owner = field d 2 2 + 2 ^ 16 * field d 120 2
  group : i.group = field d 24 2 + 2 ^ 16 * field d 122 2
  size : i.size = dataSize d
  links : i.links = field d 26 2
  flags : i.flags = field d 32 4
  reference : i.reference = reference d
  blocks : i.blocks ≤ field d 28 4 + 2 ^ 32 * field d 116 2
  access : i.access.value = after (time d 8 140)
  change : i.change.value = after (time d 12 132)
  modification : i.modification.value = after (time d 16 136)
  deletion : i.deletion.value = after (signed (field d 20 4), 0)
  creation : i.creation.bind Time.value = if 24 ≤ extraSize d ∧ 0 < signed (field d 144 4) then some (time d 144 148) else none
  attributes : i.attributes = attributes.length

/-- The inode before the part after the first 128 bytes is read. -/
structure BaseOk (U d : List Byte) (i : Inode) : Prop where
  mode : i.mode = field d 0 2
  owner : i.owner = field d 2 2 + 2 ^ 16 * field d 120 2
  group : i.group = field d 24 2 + 2 ^ 16 * field d 122 2
  size : i.size = dataSize d
  links : i.links = field d 26 2
  flags : i.flags = field d 32 4
  reference : i.reference = reference d
  blocks : i.blocks ≤ field d 28 4 + 2 ^ 32 * field d 116 2
  accessStamp : i.accessStamp = signed (field d 8 4)
  changeStamp : i.changeStamp = signed (field d 12 4)
  modificationStamp : i.modificationStamp = signed (field d 16 4)
  access : i.access = posix (signed (field d 8 4))
  change : i.change = posix (signed (field d 12 4))
  modification : i.modification = posix (signed (field d 16 4))
  deletion : i.deletion = posix (signed (field d 20 4))
  creation : i.creation = none
  attributes : i.attributes = 0
  checksum : Ext4 U → i.checksum = field d 124 2

theorem readBase_ok {U d : List Byte} (hl : 128 ≤ d.length) (hu : field d 108 4 = 0 ∨ (kind d = 8 ∧ Ext4 U)) (hv : flag d 21 = false) :
    ∃ i, readBase (version (expected U)) d = .ok i ∧ BaseOk U d i := by
  have hflag : field d 32 4 &&& 0x200000 = 0 := by
    by_contra h
    have := (bit 21 (field d 32 4) (show (0x200000 : Nat) = 2 ^ 21 from rfl)).1 h
    unfold flag at hv
    rw [this] at hv; cases hv
  have hsz : sizeAt (version (expected U)) d = .ok (dataSize d) := by
    unfold sizeAt dataSize
    rw [u32_ok (by omega), R.ok_bind]
    by_cases h4 : version (expected U) = 4
    · rw [if_pos h4, u32_ok (by omega), R.ok_bind, or_shift 32 (field_lt _ _ _), R.pure_eq]
      rcases hu with hu | ⟨hu, -⟩
      · rw [hu]; simp
      · rw [if_pos hu]
    · rw [if_neg h4]
      rcases hu with hu | ⟨-, hu⟩
      · rw [hu]; simp
      · exact absurd ((version_ok U).2 hu) h4
  have hbl : ∃ b, blocksAt (version (expected U)) d = .ok b ∧ b ≤ field d 28 4 + 2 ^ 32 * field d 116 2 := by
    unfold blocksAt
    rw [u32_ok (by omega), R.ok_bind]
    by_cases h4 : version (expected U) = 4
    · rw [if_pos h4, u16_ok (by omega), R.ok_bind, or_shift 32 (field_lt _ _ _)]
      exact ⟨_, rfl, Nat.le_refl _⟩
    · rw [if_neg h4]
      exact ⟨_, rfl, by omega⟩
  have hck : ∃ c, checksumAt (version (expected U)) d = .ok c ∧ (Ext4 U → c = field d 124 2) := by
    unfold checksumAt
    by_cases h4 : version (expected U) = 4
    · rw [if_pos h4, u16_ok (by omega)]
      exact ⟨_, rfl, fun _ => rfl⟩
    · rw [if_neg h4]
      exact ⟨_, rfl, fun h => absurd ((version_ok U).2 h) h4⟩
  obtain ⟨b, eb, hb⟩ := hbl
  obtain ⟨c, ec, hc⟩ := hck
  have hused : decide (version (expected U) ≠ 4 ∨ field d 32 4 &&& 0x200000 = 0) = true := decide_eq_true (Or.inr hflag)
  have hst : ∀ off, off + 4 ≤ d.length → stampAt d off true = .ok (signed (field d off 4)) := fun off h => by
    unfold stampAt; rw [if_pos rfl, i32_ok h]
  unfold readBase
  rw [R.require_true hl, R.ok_bind, u16_ok (by omega), R.ok_bind, u16_ok (by omega), R.ok_bind, u16_ok (by omega), R.ok_bind, u16_ok (by omega), R.ok_bind,
    u16_ok (by omega), R.ok_bind, hsz, R.ok_bind, u32_ok (by omega), R.ok_bind]
  simp only
  rw [hused, hst 8 (by omega), R.ok_bind, hst 12 (by omega), R.ok_bind, hst 16 (by omega), R.ok_bind, hst 20 (by omega), R.ok_bind, u16_ok (by omega), R.ok_bind,
    eb, R.ok_bind, R.slice_ok (by omega) (by omega), R.ok_bind, ec, R.ok_bind, or_shift 16 (field_lt _ _ _), or_shift 16 (field_lt _ _ _)]
  exact ⟨_, rfl, rfl, rfl, rfl, rfl, rfl, rfl, rfl, hb, rfl, rfl, rfl, rfl, rfl, rfl, rfl, rfl, rfl, hc⟩

theorem extraPrecision_eq (stamp : Int) (extra : Nat) : extraPrecision stamp extra = (stamp + 2 ^ 32 * (extra % 4 : Nat), extra / 4) := by
  unfold extraPrecision
  have h3 : extra &&& 3 = extra % 4 := Nat.and_two_pow_sub_one_eq_mod extra 2
  rw [h3, Nat.shiftRight_eq_div_pow]
  by_cases h : 0 < extra
  · rw [if_pos h]
    by_cases h0 : extra % 4 = 0
    · rw [if_neg (by omega), h0]; simp
    · rw [if_pos h0]; rfl
  · have : extra = 0 := by omega
    subst this
    simp

/-- A time with the field for more precision, if it is there. -/
theorem extraTime_ok {d : List Byte} {stamp extra : Nat} {present : Bool} (hl : 128 < d.length) (hp : present = true ↔ extra + 4 ≤ 128 + extraSize d)
    (hin : 128 + extraSize d ≤ d.length) (he : 128 ≤ extra) :
    ∃ t, extraTime (d.drop 128) (extra - 128) present (signed (field d stamp 4)) (posix (signed (field d stamp 4))) = .ok t ∧ t.value = after (time d stamp extra) := by
  unfold extraTime time
  by_cases h : present = true
  · rw [if_pos h, if_pos (hp.1 h)]
    have := hp.1 h
    rw [u32_ok (by rw [List.length_drop]; omega), R.ok_bind, field_drop, Nat.add_sub_cancel' he]
    simp only
    rw [extraPrecision_eq]
    simp only
    refine ⟨_, rfl, ?_⟩
    unfold after
    simp only
    by_cases hpos : 0 < signed (field d stamp 4) + 2 ^ 32 * ((field d extra 4 % 4 : Nat) : Int)
    · rw [if_pos hpos, if_pos hpos]; rfl
    · rw [if_neg hpos, if_neg hpos, posix_value]
      unfold after
      rw [if_neg]
      simp only
      omega
  · rw [if_neg h, if_neg (fun hc => h (hp.2 hc))]
    exact ⟨_, rfl, posix_value _⟩

theorem align4_eq {n p : Nat} (hp : p < 4) (h : (n + p) % 4 = 0) : align4 n = n + p := by
  unfold align4
  split <;> omega

theorem attribute_length {a : Attribute} (h : a.Ok) : a.bytes.length = 16 + a.name.length + a.padding.length := by
  unfold Attribute.bytes
  have := h.2.2.1
  simp only [List.length_append, leBytes_length]
  omega

theorem attributesLoop_ok (l : List Attribute) (hok : ∀ a ∈ l, a.Ok) (hp : ∀ a ∈ l, a.index ∈ [0, 1, 2, 3, 4, 6, 7, 8]) {data : List Byte} {rest : List Byte} {fuel offset count : Nat}
    (hf : l.length < fuel) (h4 : offset % 4 = 0) (hle : offset ≤ data.length)
    (hd : data.drop offset = l.flatMap Attribute.bytes ++ [0#8, 0#8, 0#8, 0#8] ++ rest) :
    attributesLoop data fuel offset count = .ok (count + l.length) := by
  induction l generalizing fuel offset count with
  | nil =>
    have hlen := congrArg List.length hd
    rw [List.length_drop] at hlen
    simp only [List.flatMap_nil, List.nil_append, List.length_append, List.length_cons, List.length_nil] at hlen
    obtain ⟨fuel, rfl⟩ : ∃ k, fuel = k + 1 := ⟨fuel - 1, by omega⟩
    have hend : attributesEnd data offset = .ok true := by
      unfold attributesEnd
      by_cases h8 : data.length ≤ offset + 8
      · rw [if_pos h8]
      · rw [if_neg h8, R.slice_ok (by omega) (by omega), R.ok_bind, hd]
        have : List.take (offset + 4 - offset) (List.flatMap Attribute.bytes [] ++ [0#8, 0#8, 0#8, 0#8] ++ rest) = [0#8, 0#8, 0#8, 0#8] := by
          rw [Nat.add_sub_cancel_left]; rfl
        rw [this]
        simp
    unfold attributesLoop
    rw [hend, R.ok_bind, if_pos rfl]; rfl
  | cons a l ih =>
    have hoka := hok a (by simp)
    have hal := attribute_length hoka
    obtain ⟨o1, o2, o3, o4, o5, o6⟩ := hoka
    have hlen := congrArg List.length hd
    rw [List.length_drop] at hlen
    simp only [List.flatMap_cons, List.length_append, List.length_cons, List.length_nil] at hlen
    have hd' : data.drop offset = a.bytes ++ (l.flatMap Attribute.bytes ++ [0#8, 0#8, 0#8, 0#8] ++ rest) := by
      rw [hd, List.flatMap_cons]; simp only [List.append_assoc]
    obtain ⟨fuel, rfl⟩ : ∃ k, fuel = k + 1 := ⟨fuel - 1, by simp at hf; omega⟩
    have htake : List.take 4 (a.bytes ++ (l.flatMap Attribute.bytes ++ [0#8, 0#8, 0#8, 0#8] ++ rest)) = a.bytes.take 4 := by
      rw [List.take_append_of_le_length (by omega)]
    have hend : attributesEnd data offset = .ok false := by
      unfold attributesEnd
      rw [if_neg (by omega), R.slice_ok (by omega) (by omega), R.ok_bind, hd', Nat.add_sub_cancel_left, htake]
      have : ¬ (a.bytes.take 4 = [0#8, 0#8, 0#8, 0#8] ∨ data.length ≤ offset + 16) := by
        rintro (h | h)
        · exact o6 h
        · omega
      rw [decide_eq_false this]
      rfl
    unfold attributesLoop
    rw [hend, R.ok_bind, if_neg (by simp)]
    have hbyte : ∀ k (hk : k < 16), data[offset + k]? = a.bytes[k]? := by
      intro k hk
      rw [← List.getElem?_drop, hd', List.getElem?_append_left (by omega)]
    have hname : R.get data offset = .ok (BitVec.ofNat 8 a.name.length) := by
      unfold R.get
      have := hbyte 0 (by omega)
      rw [Nat.add_zero] at this
      rw [this]; rfl
    have hindex : R.get data (offset + 1) = .ok (BitVec.ofNat 8 a.index) := by
      unfold R.get
      rw [hbyte 1 (by omega)]; rfl
    have hattr : readAttribute data offset = .ok (offset + a.bytes.length) := by
      have hi := hp a (by simp)
      unfold readAttribute
      rw [hname, R.ok_bind, hindex, R.ok_bind, BitVec.toNat_ofNat, BitVec.toNat_ofNat, Nat.mod_eq_of_lt o1, Nat.mod_eq_of_lt o2, R.require_true (by omega), R.ok_bind,
        R.require_true hi, R.ok_bind, align4_eq (p := a.padding.length) o4 (by omega), hal]
      rw [show offset + 16 + a.name.length + a.padding.length = offset + (16 + a.name.length + a.padding.length) by omega]
      rfl
    rw [hattr, R.ok_bind, ih (fun x hx => hok x (by simp [hx])) (fun x hx => hp x (by simp [hx])) (by simp at hf; omega) (by omega) (by omega) (by
      rw [← List.drop_drop, hd', List.drop_left])]
    rw [List.length_cons, show count + 1 + l.length = count + (l.length + 1) by omega]

theorem readAttributes_ok {d : List Byte} {l : List Attribute} (hl : 128 < d.length) (hin : 128 + extraSize d ≤ d.length) (h4 : extraSize d % 4 = 0)
    (h : Attributes d l) (hp : ∀ a ∈ l, a.index ∈ [0, 1, 2, 3, 4, 6, 7, 8]) : readAttributes (d.drop 128) (extraSize d) = .ok l.length := by
  have hdl : (d.drop 128).length = d.length - 128 := List.length_drop
  have hdd : (d.drop 128).drop (extraSize d) = d.drop (128 + extraSize d) := List.drop_drop
  unfold readAttributes
  rcases h with ⟨rfl, h⟩ | ⟨hok, rest, h⟩
  · by_cases hc : extraSize d + 4 < (d.drop 128).length
    · rw [if_pos hc, R.slice_ok (by omega) (by omega), R.ok_bind, hdd, Nat.add_sub_cancel_left, if_neg h]; rfl
    · rw [if_neg hc]; rfl
  · have hlen := congrArg List.length h
    rw [List.length_drop] at hlen
    simp only [List.length_append, List.length_cons, List.length_nil] at hlen
    rw [if_pos (by omega), R.slice_ok (by omega) (by omega), R.ok_bind, hdd, Nat.add_sub_cancel_left, h]
    have : List.take 4 ([0x00#8, 0x00#8, 0x02#8, 0xea#8] ++ l.flatMap Attribute.bytes ++ [0#8, 0#8, 0#8, 0#8] ++ rest) = [0x00#8, 0x00#8, 0x02#8, 0xea#8] := rfl
    rw [if_pos this]
    have hcount : l.length ≤ (l.flatMap Attribute.bytes).length := by
      clear h hlen this hp
      induction l with
      | nil => simp
      | cons a l ih =>
        have := ih (fun x hx => hok x (by simp [hx]))
        have := attribute_length (hok a (by simp))
        rw [List.flatMap_cons, List.length_append, List.length_cons]; omega
    have := attributesLoop_ok l hok hp (data := d.drop 128) (rest := rest) (fuel := (d.drop 128).length + 1) (offset := extraSize d + 4) (count := 0) (by omega) (by omega) (by omega) (by
      rw [← List.drop_drop, hdd, h]; rfl)
    rw [this, Nat.zero_add]

theorem readInode_ok {U d : List Byte} {l : List Attribute} (hl : d.length = 128 ∨ 256 ≤ d.length) (hu : field d 108 4 = 0 ∨ (kind d = 8 ∧ Ext4 U)) (hv : flag d 21 = false)
    (hex : 128 < d.length → 128 + extraSize d ≤ d.length ∧ extraSize d % 4 = 0) (ha : Attributes d l) (hp : ∀ a ∈ l, a.index ∈ [0, 1, 2, 3, 4, 6, 7, 8]) :
    ∃ i, readInode (version (expected U)) d = .ok i ∧ InodeOk U d l i ∧
      (Ext4 U → (128 < d.length → 4 ≤ extraSize d) → i.checksum = field d 124 2 + if 128 < d.length then 2 ^ 16 * field d 130 2 else 0) := by
  obtain ⟨i, e, hi⟩ := readBase_ok (U := U) (d := d) (by omega) hu hv
  unfold readInode
  rw [e, R.ok_bind]
  by_cases h128 : 128 < d.length
  · rw [if_pos h128]
    obtain ⟨x1, x2⟩ := hex h128
    have hext : u16le (d.drop 128) 0 = .ok (extraSize d) := by
      rw [u16_ok (by rw [List.length_drop]; omega), field_drop]
      unfold extraSize
      rw [if_pos h128]
    have hflag : i.flags &&& 0x200000 = 0 := by
      rw [hi.flags]
      by_contra h
      have := (bit 21 (field d 32 4) (show (0x200000 : Nat) = 2 ^ 21 from rfl)).1 h
      unfold flag at hv
      rw [this] at hv; cases hv
    obtain ⟨t1, e1, v1⟩ := extraTime_ok (d := d) (stamp := 12) (extra := 132) (present := decide (i.flags &&& 0x200000 = 0 ∧ 8 ≤ extraSize d)) h128
      (by rw [decide_eq_true_iff]; constructor <;> (intro h; first | omega | exact ⟨hflag, by omega⟩)) x1 (by omega)
    obtain ⟨t2, e2, v2⟩ := extraTime_ok (d := d) (stamp := 16) (extra := 136) (present := decide (i.flags &&& 0x200000 = 0 ∧ 12 ≤ extraSize d)) h128
      (by rw [decide_eq_true_iff]; constructor <;> (intro h; first | omega | exact ⟨hflag, by omega⟩)) x1 (by omega)
    obtain ⟨t3, e3, v3⟩ := extraTime_ok (d := d) (stamp := 8) (extra := 140) (present := decide (i.flags &&& 0x200000 = 0 ∧ 16 ≤ extraSize d)) h128
      (by rw [decide_eq_true_iff]; constructor <;> (intro h; first | omega | exact ⟨hflag, by omega⟩)) x1 (by omega)
    have hcr : ∃ t, creationTime (d.drop 128) (decide (24 ≤ extraSize d)) = .ok t ∧
        t.bind Time.value = if 24 ≤ extraSize d ∧ 0 < signed (field d 144 4) then some (time d 144 148) else none := by
      unfold creationTime
      by_cases h24 : 24 ≤ extraSize d
      · rw [if_pos (decide_eq_true h24), i32_ok (by rw [List.length_drop]; omega), R.ok_bind, u32_ok (by rw [List.length_drop]; omega), R.ok_bind]
        simp only
        rw [extraPrecision_eq, field_drop, field_drop]
        refine ⟨_, rfl, ?_⟩
        by_cases hs : 0 < signed (field d 144 4)
        · rw [if_pos hs, if_pos ⟨h24, hs⟩]
          unfold time
          rw [if_pos (by omega)]
          rfl
        · rw [if_neg hs, if_neg (fun h => hs h.2)]; rfl
      · rw [if_neg (by simpa using h24), if_neg (fun h => h24 h.1)]
        exact ⟨_, rfl, rfl⟩
    obtain ⟨t4, e4, v4⟩ := hcr
    have hck : ∃ c, upperChecksum (d.drop 128) (decide (4 ≤ extraSize d)) i.checksum = .ok c ∧ (Ext4 U → 4 ≤ extraSize d → c = field d 124 2 + 2 ^ 16 * field d 130 2) := by
      unfold upperChecksum
      by_cases h4 : 4 ≤ extraSize d
      · rw [if_pos (decide_eq_true h4), u16_ok (by rw [List.length_drop]; omega), R.ok_bind, field_drop]
        refine ⟨_, rfl, fun he _ => ?_⟩
        rw [hi.checksum he, Nat.or_comm, or_shift 16 (field_lt _ _ _)]
      · rw [if_neg (by simpa using h4)]
        exact ⟨_, rfl, fun _ h => absurd h h4⟩
    obtain ⟨c, e5, v5⟩ := hck
    have e6 := readAttributes_ok h128 x1 x2 ha hp
    unfold readExtension
    rw [hext, R.ok_bind, e5, R.ok_bind]
    simp only
    rw [hi.changeStamp, hi.change, hi.modificationStamp, hi.modification, hi.accessStamp, hi.access]
    rw [show (4 : Nat) = 132 - 128 from rfl, e1, R.ok_bind, show (8 : Nat) = 136 - 128 from rfl, e2, R.ok_bind, show (12 : Nat) = 140 - 128 from rfl, e3, R.ok_bind, e4, R.ok_bind, e6, R.ok_bind]
    refine ⟨_, rfl, ⟨hi.mode, hi.owner, hi.group, hi.size, hi.links, hi.flags, hi.reference, hi.blocks, v3, v1, v2, ?_, v4, rfl⟩, ?_⟩
    · show i.deletion.value = _
      rw [hi.deletion, posix_value]
    · intro he h4
      rw [if_pos h128]
      exact v5 he (h4 h128)
  · rw [if_neg h128]
    have hx : extraSize d = 0 := by unfold extraSize; rw [if_neg h128]
    have hz : ∀ stamp extra, 128 ≤ extra → time d stamp extra = (signed (field d stamp 4), 0) := by
      intro stamp extra h
      unfold time
      rw [if_neg (by omega)]
    have hatt : l.length = 0 := by
      rcases ha with ⟨rfl, -⟩ | ⟨-, rest, h⟩
      · rfl
      · have hlen := congrArg List.length h
        rw [List.length_drop] at hlen
        simp only [List.length_append, List.length_cons, List.length_nil] at hlen
        omega
    refine ⟨i, rfl, ⟨hi.mode, hi.owner, hi.group, hi.size, hi.links, hi.flags, hi.reference, hi.blocks, ?_, ?_, ?_, ?_, ?_, by rw [hi.attributes, hatt]⟩, ?_⟩
    · rw [hi.access, posix_value, hz _ _ (by omega)]
    · rw [hi.change, posix_value, hz _ _ (by omega)]
    · rw [hi.modification, posix_value, hz _ _ (by omega)]
    · rw [hi.deletion, posix_value]
    · rw [hi.creation, if_neg (by omega)]; rfl
    · intro he _
      rw [if_neg h128, hi.checksum he]; rfl

theorem checkInode_ok {U d : List Byte} {n stored : Nat} (hl : d.length = 128 ∨ 256 ≤ d.length)
    (h : checksums U = true → stored = if 128 < d.length then inodeSum U n d else inodeSum U n d % 2 ^ 16) :
    checkInode (if checksums U then some (~~~ seed U) else none) n d stored = .ok () := by
  by_cases hc : checksums U = true
  · have h := h hc
    rw [if_pos hc]
    unfold checkInode
    simp only
    have hpieces : extensionPieces d = .ok (if 128 < d.length then [(d.drop 128).take 2, [0#8, 0#8], d.drop 132] else []) := by
      unfold extensionPieces
      by_cases h128 : 128 < d.length
      · rw [if_pos h128, if_pos h128, R.slice_ok (by omega) (by omega), R.ok_bind, R.slice_ok (by omega) (by omega), R.ok_bind]
        rw [show List.take (d.length - 132) (d.drop 132) = d.drop 132 from List.take_of_length_le (by rw [List.length_drop])]
        rfl
      · rw [if_neg h128, if_neg h128]
    rw [hpieces, R.ok_bind, R.slice_ok (by omega) (by omega), R.ok_bind, R.slice_ok (by omega) (by omega), R.ok_bind, R.slice_ok (by omega) (by omega), R.ok_bind, crc_ok, R.ok_bind]
    refine R.require_true (Or.inr ?_)
    rw [complement_sum, BitVec.not_not, h]
    have hsum : (sum (seed U) ([leBytes 4 n, List.take (104 - 100) (List.drop 100 d), List.take (124 - 0) (List.drop 0 d), [0#8, 0#8],
        List.take (128 - 126) (List.drop 126 d)] ++ if 128 < d.length then [(d.drop 128).take 2, [0#8, 0#8], d.drop 132] else []).flatten).toNat = inodeSum U n d := by
      unfold inodeSum
      congr 2
      by_cases h128 : 128 < d.length
      · rw [if_pos h128, if_pos h128]; simp
      · rw [if_neg h128, if_neg h128]; simp
    rw [hsum]
    by_cases h128 : 128 < d.length
    · rw [if_pos h128, if_neg (by omega)]
    · rw [if_neg h128, if_pos (by omega)]
  · rw [if_neg hc]; rfl

theorem ordered_mono {a b from_ : Nat} (h : a ≤ b) {es : List Extent} (ho : Ordered a from_ es) : Ordered b from_ es := by
  induction es generalizing from_ with
  | nil => exact Nat.le_trans ho h
  | cons e es ih => exact ⟨ho.1, ih ho.2⟩

theorem reference_length {d : List Byte} (h : 128 ≤ d.length) : (reference d).length = 60 := by
  unfold reference; rw [List.length_take, List.length_drop]; omega

/-- All blocks of the data are in the volume. -/
theorem maps_inside {U d : List Byte} {map : Nat → Option Nat} (h : Maps U d map) (b p : Nat) (hb : map b = some p) : (p + 1) * blockSize U ≤ U.length := by
  cases h with
  | extents h1 h2 h3 h4 h5 h6 h7 =>
    unfold extentBlock at hb
    obtain ⟨e, he, rfl⟩ := Option.map_eq_some_iff.1 hb
    have hmem := List.mem_of_find?_eq_some he
    have hp := List.find?_some he
    simp only [decide_eq_true_eq] at hp
    have := h7 e hmem hp.2.2
    have h := Nat.mul_le_mul_right (blockSize U) (show e.start + (b - e.logical) + 1 ≤ e.start + e.count by omega)
    omega
  | numbers h1 h2 h3 h4 h5 => exact h5 b p hb

/-- The ranges of the blocks of an inode. -/
def RangesOk (U d : List Byte) (blocks : Nat) (ranges : List Ext.Range) : Prop :=
  ∀ map, Maps U d map → Ext.Chain 0 ranges blocks ∧ Ext.cover ranges = (List.range blocks).map map

theorem divides {U : List Byte} (h : Valid U) : blockSize U % 4 = 0 := by
  have : blockSize U = 4 * 2 ^ (8 + field (super U) 24 4) := by
    unfold blockSize
    rw [show 10 + field (super U) 24 4 = 2 + (8 + field (super U) 24 4) by omega, Nat.pow_add]
  omega

theorem flag19 (d : List Byte) : field d 32 4 &&& 0x80000 ≠ 0 ↔ flag d 19 = true := bit 19 _ rfl

theorem maps_ranges {U d : List Byte} (h : Valid U) (hU : U.length < 2 ^ 63) (hl : 128 ≤ d.length) {blocks : Nat} (hB : dataBlocks U d ≤ blocks) (hb : blocks < 2 ^ 63)
    {map : Nat → Option Nat} (hm : Maps U d map) :
    ∃ ranges, (if version (expected U) = 4 ∧ field d 32 4 &&& 0x80000 ≠ 0 then Ext.readExtents U (blockSize U) blocks (reference d)
        else Ext.readBlockNumbers U (blockSize U) blocks (reference d)) = .ok ranges ∧
      Ext.Chain 0 ranges blocks ∧ Ext.cover ranges = (List.range blocks).map map := by
  have hbs := blockSize_bounds h
  cases hm with
  | @extents depth extents h1 h2 h3 h4 h5 h6 h7 =>
    rw [if_pos ⟨(version_ok U).2 (Or.inr (Or.inl ⟨6, by simp, h2⟩)), (flag19 d).2 h1⟩]
    have e1 := Ext.readNode_ok (by omega) depth h3 h4 h5 (parent := 6) (fuel := 6) (by omega) (by omega) ⟨0, []⟩
    have e2 := Ext.extents_covers (f := extentBlock extents) extents h5 ⟨0, []⟩ ⟨rfl, rfl⟩ (ordered_mono hB h6) (fun _ _ => rfl)
    simp only at e2
    obtain ⟨c1, c2, c3⟩ := e2
    obtain ⟨f1, f2⟩ := Ext.fillEnd_covers c1 c2 (fun b hb _ => c3 b hb)
    exact ⟨_, by unfold Ext.readExtents; rw [e1, R.ok_bind]; rfl, f1, f2⟩
  | numbers h1 h2 h3 h4 h5 =>
    rw [if_neg (fun hc => by rw [(flag19 d).1 hc.2] at h1; cases h1)]
    have hg := Ext.readBlockNumbers_good (U := U) (bs := blockSize U) (blocks := blocks) (by omega) (by omega) (divides h) hb (reference d) (reference_length hl)
    have hne := hg.2 ⟨h2, h3, h4⟩
    cases hr : Ext.readBlockNumbers U (blockSize U) blocks (reference d) with
    | ok ranges => rw [hr] at hg; exact ⟨ranges, rfl, hg.1⟩
    | err => exact absurd hr hne
    | panic => rw [hr] at hg; exact hg.1.elim

/-- With no more than 12 blocks any references can be read. -/
theorem readBlockNumbers_short {U d : List Byte} (h : Valid U) (hl : 128 ≤ d.length) {blocks : Nat} (hb : blocks ≤ 12) :
    ∃ ranges, Ext.readBlockNumbers U (blockSize U) blocks (reference d) = .ok ranges := by
  have hbs := blockSize_bounds h
  have hrl := reference_length hl
  have hs48 : ((List.drop 0 (reference d)).take (48 - 0)).length = 48 := by rw [List.drop_zero, List.length_take]; omega
  have hg := Ext.readNumbers_good (U := U) (bs := blockSize U) (blocks := blocks) (by omega) (by omega) (divides h) (by omega) 0 (by omega)
    ((List.drop 0 (reference d)).take (48 - 0)) (by rw [hs48]) ⟨0, []⟩ rfl (by simp)
  have hdone : ∀ depth data st, blocks ≤ st.logical → Ext.readNumbers U (blockSize U) blocks depth data st = .ok st := by
    have hloop : ∀ entry data n off st, blocks ≤ st.logical → Ext.numbersLoop blocks entry data n off st = .ok st := by
      intro entry data n off st hst
      cases n with
      | zero => rfl
      | succ n => unfold Ext.numbersLoop; rw [if_pos hst]
    intro depth data st hst
    cases depth <;> (unfold Ext.readNumbers; exact hloop _ _ _ _ _ hst)
  unfold Ext.readBlockNumbers
  rw [R.slice_ok (by omega) (by omega), R.ok_bind]
  cases hr : Ext.readNumbers U (blockSize U) blocks 0 ((List.drop 0 (reference d)).take (48 - 0)) ⟨0, []⟩ with
  | err => exact absurd hr (hg.2 (fun _ _ => trivial))
  | panic => rw [hr] at hg; exact hg.1.elim
  | ok st =>
    rw [hr] at hg
    obtain ⟨⟨c1, c2, c3⟩, -⟩ := hg
    have hlog : blocks ≤ st.logical := by
      have h1 := c1.length
      rw [c3, hs48] at h1
      have h12 : ((List.range (48 / 4)).flatMap fun i => Ext.below U (blockSize U) 0 (number ((List.drop 0 (reference d)).take (48 - 0)) i)).length = 12 := by
        simp [Ext.below, List.range_succ]
      rw [List.length_append, List.length_take, h12] at h1
      simp [Ext.cover] at h1
      omega
    rw [R.ok_bind, R.slice_ok (by omega) (by omega), R.ok_bind, hdone _ _ _ hlog, R.ok_bind, R.slice_ok (by omega) (by omega), R.ok_bind, hdone _ _ _ hlog, R.ok_bind,
      R.slice_ok (by omega) (by omega), R.ok_bind, hdone _ _ _ hlog, R.ok_bind]
    exact ⟨_, rfl⟩

/-- The number of blocks the code uses. -/
def blocksUsed (U : List Byte) (i : Inode) : Nat := max (BlockTree.divCeil i.size (blockSize U)) i.blocks

theorem mode_kind {d : List Byte} (c : Nat) : field d 0 2 &&& 0xf000 = c * 2 ^ 12 ↔ kind d = c := mode_eq (field_lt d 0 2) c

theorem readReference_ok {U d : List Byte} {i : Inode} {l : List Attribute} (h : Valid U) (hU : U.length < 2 ^ 63) (hl : 128 ≤ d.length) (hi : InodeOk U d l i)
    (hsize : dataSize d + blockSize U ≤ 2 ^ 63) (hblocks : (field d 28 4 + 2 ^ 32 * field d 116 2) * blockSize U < 2 ^ 63)
    (hshort : Short d → dataSize d ≤ 60 ∧ field d 28 4 + 2 ^ 32 * field d 116 2 ≤ 12)
    (hdata : kind d = 2 ∨ kind d = 6 ∨ Short d ∨ ∃ map, Maps U d map) :
    blocksUsed U i * blockSize U < 2 ^ 63 ∧ dataBlocks U d ≤ blocksUsed U i ∧
    ∃ ranges, readReference U (version (expected U)) (blockSize U) i = .ok ranges ∧ (kind d ≠ 2 → kind d ≠ 6 → RangesOk U d (blocksUsed U i) ranges) := by
  have hbs := blockSize_bounds h
  have hdb : BlockTree.divCeil i.size (blockSize U) = dataBlocks U d := by unfold BlockTree.divCeil dataBlocks; rw [hi.size]
  have hB : dataBlocks U d ≤ blocksUsed U i := by unfold blocksUsed; rw [hdb]; omega
  have hmax : blocksUsed U i * blockSize U < 2 ^ 63 := by
    unfold blocksUsed
    rw [hdb]
    rcases Nat.le_total (dataBlocks U d) i.blocks with hc | hc
    · rw [Nat.max_eq_right hc]
      exact Nat.lt_of_le_of_lt (Nat.mul_le_mul_right _ hi.blocks) hblocks
    · rw [Nat.max_eq_left hc]
      have := Nat.div_mul_le_self (dataSize d + blockSize U - 1) (blockSize U)
      unfold dataBlocks
      omega
  have hb : blocksUsed U i < 2 ^ 63 := by
    have := Nat.le_mul_of_pos_right (blocksUsed U i) (show 0 < blockSize U by omega)
    omega
  refine ⟨hmax, hB, ?_⟩
  have h2 : i.mode &&& 0xf000 = 0x2000 ↔ kind d = 2 := by rw [hi.mode]; exact mode_kind 2
  have h6 : i.mode &&& 0xf000 = 0x6000 ↔ kind d = 6 := by rw [hi.mode]; exact mode_kind 6
  unfold readReference
  by_cases hdev : kind d = 2 ∨ kind d = 6
  · rw [if_pos (by rw [h2, h6]; exact hdev)]
    exact ⟨[], rfl, fun k2 k6 => (hdev.elim k2 k6).elim⟩
  · rw [if_neg (by rw [h2, h6]; exact hdev)]
    have hbo : blocksOf (blockSize U) i = .ok (blocksUsed U i) := by
      unfold blocksOf blocksUsed
      rw [R.check_true (by omega), R.ok_bind]; rfl
    rw [hbo, R.ok_bind, hi.flags, hi.reference]
    by_cases hm : ∃ map, Maps U d map
    · obtain ⟨map, hm⟩ := hm
      obtain ⟨ranges, e, -⟩ := maps_ranges h hU hl hB hb hm
      refine ⟨ranges, e, fun _ _ map' hm' => ?_⟩
      obtain ⟨ranges', e', h'⟩ := maps_ranges h hU hl hB hb hm'
      rw [e, R.ok.injEq] at e'
      rw [e']; exact h'
    · have hs : Short d := by
        rcases hdata with hc | hc | hc | hc
        · exact absurd (Or.inl hc) hdev
        · exact absurd (Or.inr hc) hdev
        · exact hc
        · exact absurd hc hm
      obtain ⟨s1, s2⟩ := hshort hs
      rw [if_neg (fun hc => by have := hs.1; rw [(flag19 d).1 hc.2] at this; cases this)]
      have : blocksUsed U i ≤ 12 := by
        unfold blocksUsed
        rw [hdb]
        have : dataBlocks U d ≤ 1 := by
          unfold dataBlocks
          rw [← Nat.lt_succ_iff, Nat.div_lt_iff_lt_mul (by omega)]
          omega
        have := hi.blocks
        omega
      obtain ⟨ranges, e⟩ := readBlockNumbers_short (U := U) (d := d) h hl this
      exact ⟨ranges, e, fun _ _ map hm' => absurd ⟨map, hm'⟩ hm⟩

theorem inode_inside {U : List Byte} (h : Valid U) {n : Nat} (h1 : 1 ≤ n) (h2 : n ≤ inodes U) :
    Spec.ExtFs.inodeTable U ((n - 1) / inodesPerGroup U) * blockSize U + (n - 1) % inodesPerGroup U * inodeSize U + inodeSize U ≤ U.length := by
  have hip := h.inodesPos
  have hc := h.inodeCount
  have hg : (n - 1) / inodesPerGroup U < groups U := (Nat.div_lt_iff_lt_mul hip).2 (by omega)
  have := (h.inodeTables _ hg).2
  have hm := Nat.mul_le_mul_right (inodeSize U) (Nat.succ_le_of_lt (Nat.mod_lt (n - 1) hip))
  rw [Nat.succ_mul] at hm
  omega

theorem inode_length {U : List Byte} (h : Valid U) {n : Nat} (h1 : 1 ≤ n) (h2 : n ≤ inodes U) : (inode U n).length = inodeSize U := by
  have := inode_inside h h1 h2
  unfold inode
  rw [List.length_take, List.length_drop]; omega

theorem inodeOffset_ok {U : List Byte} (h : Valid U) (hU : U.length < 2 ^ 63) {fs : Fs} (hfs : FsOk U fs) {n : Nat} (h1 : 1 ≤ n) (h2 : n ≤ inodes U) :
    inodeOffset fs n = .ok (Spec.ExtFs.inodeTable U ((n - 1) / inodesPerGroup U) * blockSize U + (n - 1) % inodesPerGroup U * inodeSize U) := by
  have hin := inode_inside h h1 h2
  have hip := h.inodesPos
  unfold inodeOffset
  rw [R.subU_ok h1, R.ok_bind, hfs.super]
  show (do
    let a ← BlockTree.get fs.tree ((n - 1) * inodeSize U)
    let table ← Fat.orErr a
    R.check (inodesPerGroup U ≠ 0)
    let start ← R.mulU 64 table (blockSize U)
    R.addU 64 ((n - 1) % inodesPerGroup U * inodeSize U) start) = _
  rw [hfs.table n h1 h2, R.ok_bind, show Fat.orErr (some (Spec.ExtFs.inodeTable U ((n - 1) / inodesPerGroup U))) = .ok _ from rfl, R.ok_bind,
    R.check_true (by omega), R.ok_bind, R.mulU_ok (by omega), R.ok_bind, R.addU_ok (by omega), Nat.add_comm]

/-- An inode of a sound file is read. -/
theorem getInode_ok {U : List Byte} (h : Valid U) (hh : Handled U) (hU : U.length < 2 ^ 63) {fs : Fs} (hfs : FsOk U fs) {n : Nat} {l : List Attribute} (hf : File U n)
    (hfh : FileHandled U n l) :
    ∃ i ranges, getInode U fs n = .ok (i, ranges) ∧ InodeOk U (inode U n) l i ∧ blocksUsed U i * blockSize U < 2 ^ 63 ∧ dataBlocks U (inode U n) ≤ blocksUsed U i ∧
      (kind (inode U n) ≠ 2 → kind (inode U n) ≠ 6 → RangesOk U (inode U n) (blocksUsed U i) ranges) := by
  have hin := inode_inside h hf.first hf.last
  have hlen := inode_length h hf.first hf.last
  have hsz : (inode U n).length = 128 ∨ 256 ≤ (inode U n).length := by
    rw [hlen]
    have := h.inodeSizes
    simp only [List.mem_cons, List.not_mem_nil, or_false] at this
    omega
  have hoff := inodeOffset_ok h hU hfs hf.first hf.last
  obtain ⟨i, e, hi, hck⟩ := readInode_ok (U := U) (d := inode U n) (l := l) hsz hfh.upper hfh.value (by rw [hlen]; exact hf.extra) hfh.stored hfh.prefixes
  obtain ⟨b1, b2, ranges, e2, hr⟩ := readReference_ok h hU (by omega) hi hfh.size hfh.blocks hfh.short hf.data
  have hchk := checkInode_ok (U := U) (d := inode U n) (n := n) (stored := i.checksum) hsz (by
    intro hc
    rw [hck (hh.ext4 hc) (by rw [hlen]; exact hfh.extra hc), hlen]
    exact hf.sum hc)
  refine ⟨i, ranges, ?_, hi, b1, b2, hr⟩
  unfold getInode
  rw [hoff, R.ok_bind, hfs.super]
  show (do
    let data ← readExactAt U _ (inodeSize U)
    let i ← readInode (version (expected U)) data
    checkInode fs.seed n data i.checksum
    let ranges ← readReference U (version (expected U)) (blockSize U) i
    return (i, ranges)) = _
  rw [readExactAt_ok hin, R.ok_bind, show (U.drop _).take (inodeSize U) = inode U n from rfl, e, R.ok_bind, hfs.seed, hchk, R.ok_bind, e2, R.ok_bind]
  rfl

end Keramics.ExtFs
