import Verif.Model.VhdxOpen
import Verif.Spec.VhdxOpen
import Verif.Lemmas.Volumes
import Verif.Lemmas.Vhdx
import Verif.Props.Types

/-! # Lemmas about opening VHDX files -/

namespace Keramics.Vhdx
open Keramics.Spec Keramics.Spec.VhdxFile

theorem u16le_field {data : List Byte} {a : Nat} (h : a + 2 ≤ data.length) : u16le data a = .ok (field data a 2) := by
  unfold u16le; rw [slice_bytesAt h]; rfl

/-- A UUID in a file. -/
def uuidOf (d : List Byte) : Uuid.Uuid :=
  ⟨leNat (bytesAt d 0 4), leNat (bytesAt d 4 2), leNat (bytesAt d 6 2), beNat (bytesAt d 8 2),
    (beNat (bytesAt d 10 2) <<< 32) ||| beNat (bytesAt d 12 4)⟩

theorem uuid_ok {d : List Byte} (h : d.length = 16) : Uuid.fromLeBytes d = .ok (uuidOf d) := by
  match d, h with
  | [b0, b1, b2, b3, b4, b5, b6, b7, b8, b9, b10, b11, b12, b13, b14, b15], _ => rfl

theorem uuid_inj {a b : List Byte} (ha : a.length = 16) (hb : b.length = 16) : uuidOf a = uuidOf b ↔ a = b := by
  refine ⟨fun h => ?_, fun h => by rw [h]⟩
  match a, ha, b, hb with
  | [a0, a1, a2, a3, a4, a5, a6, a7, a8, a9, a10, a11, a12, a13, a14, a15], _,
    [b0, b1, b2, b3, b4, b5, b6, b7, b8, b9, b10, b11, b12, b13, b14, b15], _ =>
    have hl (x y z w : Byte) : beNat [x, y, z, w] < 2 ^ 32 := by
      simp only [beNat, List.reverse_cons, List.reverse_nil, List.nil_append, List.cons_append, leNat]
      have := x.isLt; have := y.isLt; have := z.isLt; have := w.isLt
      omega
    have hz : ∀ x y : Byte, x.toNat = y.toNat → x = y := fun x y e => BitVec.eq_of_toNat_eq e
    have h1 := congrArg Uuid.Uuid.part1 h
    have h2 := congrArg Uuid.Uuid.part2 h
    have h3 := congrArg Uuid.Uuid.part3 h
    have h4 := congrArg Uuid.Uuid.part4 h
    have h5 := congrArg Uuid.Uuid.part5 h
    change leNat [a0, a1, a2, a3] = leNat [b0, b1, b2, b3] at h1
    change leNat [a4, a5] = leNat [b4, b5] at h2
    change leNat [a6, a7] = leNat [b6, b7] at h3
    change beNat [a8, a9] = beNat [b8, b9] at h4
    change (beNat [a10, a11] <<< 32) ||| beNat [a12, a13, a14, a15] = (beNat [b10, b11] <<< 32) ||| beNat [b12, b13, b14, b15] at h5
    have l1 := hl a12 a13 a14 a15
    have l2 := hl b12 b13 b14 b15
    rw [shl_or l1, shl_or l2] at h5
    simp only [beNat, List.reverse_cons, List.reverse_nil, List.nil_append, List.cons_append, leNat] at h1 h2 h3 h4 h5 l1 l2
    have t (x : Byte) := x.isLt
    have := t a0; have := t a1; have := t a2; have := t a3; have := t b0; have := t b1; have := t b2; have := t b3
    have e0 := hz a0 b0 (by omega)
    have e1 := hz a1 b1 (by omega)
    have e2 := hz a2 b2 (by omega)
    have e3 := hz a3 b3 (by omega)
    clear h1
    have := t a4; have := t a5; have := t a6; have := t a7; have := t b4; have := t b5; have := t b6; have := t b7
    have e4 := hz a4 b4 (by omega)
    have e5 := hz a5 b5 (by omega)
    have e6 := hz a6 b6 (by omega)
    have e7 := hz a7 b7 (by omega)
    clear h2 h3
    have := t a8; have := t a9; have := t a10; have := t a11; have := t b8; have := t b9; have := t b10; have := t b11
    have e8 := hz a8 b8 (by omega)
    have e9 := hz a9 b9 (by omega)
    clear h4
    have := t a12; have := t a13; have := t a14; have := t a15; have := t b12; have := t b13; have := t b14; have := t b15
    have e10 := hz a10 b10 (by omega)
    have e11 := hz a11 b11 (by omega)
    have e12 := hz a12 b12 (by omega)
    have e13 := hz a13 b13 (by omega)
    have e14 := hz a14 b14 (by omega)
    have e15 := hz a15 b15 (by omega)
    rw [e0, e1, e2, e3, e4, e5, e6, e7, e8, e9, e10, e11, e12, e13, e14, e15]

theorem checksum_ok {d : List Byte} {n : Nat} (hn : d.length = n) (h8 : 8 ≤ n) :
    checksum d n = .ok (crc32Reflected 0x82f63b78#32 0#32 (bytesAt d 0 4 ++ List.replicate 4 0#8 ++ d.drop 8)).toNat := by
  unfold checksum
  rw [slice_bytesAt' (n := 4) rfl (by omega), R.ok_bind, slice_bytesAt' (n := n - 8) (by omega) (by omega), R.ok_bind]
  have he : bytesAt d 8 (n - 8) = d.drop 8 := by
    unfold bytesAt; rw [List.take_of_length_le (by rw [List.length_drop]; omega)]
  rw [he]
  obtain ⟨c, h1, h2, h3, h4, h5⟩ := Crc32.revUpdates_ok _ (Crc32.Inv.new _ 0x82f63b78#32 0#32) [bytesAt d 0 4, List.replicate 4 0#8, d.drop 8]
  rw [h1, R.ok_bind, R.pure_eq]
  have hnot : ∀ x : BitVec 32, x ^^^ 0xffffffff#32 = ~~~ x := fun x => by
    rw [show (0xffffffff#32) = BitVec.allOnes 32 from rfl, BitVec.xor_allOnes]
  simp only [Crc32.Ctx.finalize, h5, hnot, Spec.crc32Reflected, Crc32.Ctx.new, List.flatten_cons, List.flatten_nil, List.append_nil, List.append_assoc]

theorem field_at {file : List Byte} {pos n a k : Nat} (h : a + k ≤ n) : field (bytesAt file pos n) a k = field file (pos + a) k := by
  unfold field; rw [bytesAt_bytesAt h]

theorem readFileHeader_good (file : List Byte) :
    R.Good (65536 ≤ file.length ∧ bytesAt file 0 8 = ascii "vhdxfile") (readFileHeader file) (fun _ => bytesAt file 0 8 = ascii "vhdxfile") := by
  unfold readFileHeader
  refine (readExactAt_good.mono (fun h => by omega) fun _ h => h).bind fun d hd => ?_
  obtain ⟨rfl, h2, -⟩ := hd
  rw [slice_bytesAt' (n := 8) rfl (by omega), R.ok_bind, bytesAt_bytesAt (by omega)]
  exact R.Good.require fun h => h.2

theorem readImageHeader_good (file : List Byte) (pos : Nat) :
    R.Good (HeaderOk file true pos) (readImageHeader file pos) (fun h => HeaderOk file true pos ∧
      h = ⟨field file (pos + 8) 8, uuidOf (bytesAt file (pos + 32) 16), field file (pos + 66) 2⟩) := by
  unfold readImageHeader
  refine (readExactAt_good.mono (fun h => h.inside) fun _ h => h).bind fun d hd => ?_
  obtain ⟨hd, h2, h3⟩ := hd
  have hin := h3 (by omega)
  rw [slice_bytesAt' (n := 4) rfl (by omega), R.ok_bind]
  have hs : bytesAt d 0 4 = bytesAt file pos 4 := by rw [hd, bytesAt_bytesAt (by omega)]; rfl
  refine (R.Good.require (fun h => by rw [hs]; exact h.signature)).bind fun _ h4 => ?_
  rw [hs] at h4
  rw [u32le_field (by omega), R.ok_bind, u64le_field (by omega), R.ok_bind, slice_bytesAt' (n := 16) rfl (by omega), R.ok_bind,
    uuid_ok (bytesAt_length (by omega)), R.ok_bind, u16le_field (by omega), R.ok_bind, checksum_ok h2 (by omega), R.ok_bind]
  refine (R.Good.require (fun h => ?_)).bind fun _ h5 => R.Good.ok ⟨⟨hin, h4, ?_⟩, ?_⟩
  · have := h.checksum
    rw [← hd] at this
    rcases this with k | ⟨-, k⟩
    · rintro ⟨-, k'⟩; exact k' k
    · rintro ⟨k', -⟩; exact k' k
  · rw [← hd]
    by_cases hz : field d 4 4 = 0
    · exact Or.inr ⟨rfl, hz⟩
    · exact Or.inl (Classical.byContradiction fun k => h5 ⟨hz, k⟩)
  · rw [hd, field_at (by omega), field_at (by omega), bytesAt_bytesAt (by omega)]

theorem entriesLoop_good {entry : List Byte → R Place} {c : List Byte → Prop} {f : List Byte → Place}
    (he : ∀ e, e.length = 32 → R.Good (c e) (entry e) (fun p => c e ∧ p = f e)) {d : List Byte} (n off : Nat) (acc : List Place)
    (hd : off + 32 * n ≤ d.length) :
    R.Good (∀ i, i < n → c (bytesAt d (off + 32 * i) 32)) (entriesLoop entry d n off acc)
      (fun r => (∀ i, i < n → c (bytesAt d (off + 32 * i) 32)) ∧
        r = ((List.range n).map fun i => f (bytesAt d (off + 32 * i) 32)).reverse ++ acc) := by
  induction n generalizing off acc with
  | zero => exact R.Good.ok ⟨fun i hi => absurd hi (by omega), rfl⟩
  | succ n ih =>
    unfold entriesLoop
    rw [slice_bytesAt (by omega), R.ok_bind]
    refine ((he _ (bytesAt_length (by omega))).mono (fun h => h 0 (by omega)) fun _ h => h).bind fun p hp => ?_
    have hsh : ∀ i, off + 32 + 32 * i = off + 32 * (i + 1) := fun i => by omega
    refine (ih (off + 32) (p :: acc) (by omega)).mono (fun h i hi => ?_) fun r hr => ⟨fun i hi => ?_, ?_⟩
    · rw [hsh]; exact h (i + 1) (by omega)
    · cases i with
      | zero => exact hp.1
      | succ i => rw [← hsh]; exact hr.1 i (by omega)
    · rw [hr.2, List.range_succ_eq_map, List.map_cons, List.reverse_cons, List.append_assoc, hp.2, List.map_map]
      simp only [hsh]
      rfl

/-- The entry of a region. -/
def regionOf (e : List Byte) : Place := ⟨uuidOf (bytesAt e 0 16), field e 16 8, field e 24 4⟩

/-- The entry of an item. -/
def itemOf (e : List Byte) : Place := ⟨uuidOf (bytesAt e 0 16), field e 16 4, field e 20 4⟩

theorem regionEntry_good (e : List Byte) (h : e.length = 32) : R.Good True (regionEntry e) (fun p => True ∧ p = regionOf e) := by
  unfold regionEntry
  rw [R.require_true h, R.ok_bind, slice_bytesAt' (n := 16) rfl (by omega), R.ok_bind, uuid_ok (bytesAt_length (by omega)), R.ok_bind,
    u64le_field (by omega), R.ok_bind, u32le_field (by omega), R.ok_bind]
  exact R.Good.ok ⟨trivial, rfl⟩

theorem itemEntry_good (e : List Byte) (h : e.length = 32) :
    R.Good (65536 ≤ field e 16 4) (itemEntry e) (fun p => 65536 ≤ field e 16 4 ∧ p = itemOf e) := by
  unfold itemEntry
  rw [R.require_true h, R.ok_bind, slice_bytesAt' (n := 16) rfl (by omega), R.ok_bind, uuid_ok (bytesAt_length (by omega)), R.ok_bind,
    u32le_field (by omega), R.ok_bind, u32le_field (by omega), R.ok_bind]
  refine (R.Good.require (fun h => by show ¬ field e 16 4 < 65536; omega)).bind fun _ h => R.Good.ok ⟨?_, rfl⟩
  have : ¬ field e 16 4 < 65536 := h
  omega

/-- The entries of a table in a file, the last first. -/
def entriesOf (file : List Byte) (f : List Byte → Place) (first n : Nat) : List Place :=
  ((List.range n).map fun i => f (bytesAt file (first + 32 * i) 32)).reverse

theorem find_entries {file : List Byte} {f : List Byte → Place} {first n : Nat} (hf : ∀ e, (f e).id = uuidOf (bytesAt e 0 16))
    (hin : first + 32 * n ≤ file.length) {id : List Byte} (hid : id.length = 16) :
    find (entriesOf file f first n) (uuidOf id) = (lastEntry file first n id).map f := by
  unfold find entriesOf lastEntry
  rw [← List.map_reverse, ← List.map_reverse, List.find?_map, List.find?_map, Option.map_map]
  have : ∀ l : List Nat, (∀ i ∈ l, i < n) →
      l.find? ((fun x : Place => decide (x.id = uuidOf id)) ∘ fun i => f (bytesAt file (first + 32 * i) 32)) =
      l.find? ((fun e => decide (bytesAt e 0 16 = id)) ∘ fun i => bytesAt file (first + 32 * i) 32) := by
    intro l hl
    induction l with
    | nil => rfl
    | cons i l ih =>
      have hi := hl i (by simp)
      have : ((fun x : Place => decide (x.id = uuidOf id)) ∘ fun i => f (bytesAt file (first + 32 * i) 32)) i =
          ((fun e => decide (bytesAt e 0 16 = id)) ∘ fun i => bytesAt file (first + 32 * i) 32) i := by
        simp only [Function.comp, hf]
        rw [decide_eq_decide]
        refine uuid_inj (bytesAt_length ?_) hid
        rw [bytesAt_length (by omega)]; omega
      rw [List.find?_cons, List.find?_cons, this, ih fun j hj => hl j (by simp [hj])]
  rw [this _ fun i hi => by simpa using hi]
  rfl

theorem readRegions_good (file : List Byte) (pos : Nat) :
    R.Good (RegionsOk file true pos) (readRegions file pos) (fun r => RegionsOk file true pos ∧
      r = entriesOf file regionOf (pos + 16) (field file (pos + 8) 4)) := by
  unfold readRegions
  refine (readExactAt_good.mono (fun h => h.inside) fun _ h => h).bind fun d hd => ?_
  obtain ⟨hd, h2, h3⟩ := hd
  have hin := h3 (by omega)
  rw [slice_bytesAt' (n := 4) rfl (by omega), R.ok_bind]
  have hs : bytesAt d 0 4 = bytesAt file pos 4 := by rw [hd, bytesAt_bytesAt (by omega)]; rfl
  refine (R.Good.require (fun h => by rw [hs]; exact h.signature)).bind fun _ h4 => ?_
  rw [hs] at h4
  have hc : field d 8 4 = field file (pos + 8) 4 := by rw [hd, field_at (by omega)]
  rw [u32le_field (by omega), R.ok_bind, u32le_field (by omega), R.ok_bind, hc]
  refine (R.Good.require (fun h => by have := h.number; omega)).bind fun _ h5 => ?_
  rw [checksum_ok h2 (by omega), R.ok_bind]
  refine (R.Good.require (fun h => ?_)).bind fun _ h6 => ?_
  · have := h.checksum
    rw [← hd] at this
    rcases this with k | ⟨-, k⟩
    · rintro ⟨-, k'⟩; exact k' k
    · rintro ⟨k', -⟩; exact k' k
  have hck : Checksum true (bytesAt file pos 65536) := by
    rw [← hd]
    by_cases hz : field d 4 4 = 0
    · exact Or.inr ⟨rfl, hz⟩
    · exact Or.inl (Classical.byContradiction fun k => h6 ⟨hz, k⟩)
  refine (entriesLoop_good (c := fun _ => True) regionEntry_good _ 16 [] (by omega)).mono (fun _ _ _ => trivial) fun r hr =>
    ⟨⟨hin, h4, hck, by omega⟩, ?_⟩
  rw [hr.2, List.append_nil]
  unfold entriesOf
  congr 1
  refine List.map_congr_left fun i hi => ?_
  rw [List.mem_range] at hi
  rw [hd, bytesAt_bytesAt (by omega), Nat.add_assoc]

theorem readItems_good (file : List Byte) (pos : Nat) (hn : field file (pos + 10) 2 ≤ 2047) :
    R.Good (pos + 65536 ≤ file.length ∧ bytesAt file pos 8 = ascii "metadata" ∧
        ∀ i, i < field file (pos + 10) 2 → 65536 ≤ field file (pos + 32 + 32 * i + 16) 4)
      (readItems file pos) (fun r => (pos + 65536 ≤ file.length ∧ bytesAt file pos 8 = ascii "metadata" ∧
        ∀ i, i < field file (pos + 10) 2 → 65536 ≤ field file (pos + 32 + 32 * i + 16) 4) ∧
      r = entriesOf file itemOf (pos + 32) (field file (pos + 10) 2)) := by
  unfold readItems
  refine (readExactAt_good.mono (fun h => h.1) fun _ h => h).bind fun d hd => ?_
  obtain ⟨hd, h2, h3⟩ := hd
  have hin := h3 (by omega)
  rw [slice_bytesAt' (n := 8) rfl (by omega), R.ok_bind]
  have hs : bytesAt d 0 8 = bytesAt file pos 8 := by rw [hd, bytesAt_bytesAt (by omega)]; rfl
  refine (R.Good.require (fun h => by rw [hs]; exact h.2.1)).bind fun _ h4 => ?_
  rw [hs] at h4
  have hc : field d 10 2 = field file (pos + 10) 2 := by rw [hd, field_at (by omega)]
  rw [u16le_field (by omega), R.ok_bind, hc]
  have hi : ∀ i, i < field file (pos + 10) 2 → field (bytesAt d (32 + 32 * i) 32) 16 4 = field file (pos + 32 + 32 * i + 16) 4 := by
    intro i hi
    rw [field_at (by omega), hd, field_at (by omega)]
    congr 1; omega
  refine (entriesLoop_good itemEntry_good _ 32 [] (by omega)).mono (fun h i k => ?_) fun r hr =>
    ⟨⟨hin, h4, fun i k => ?_⟩, ?_⟩
  · rw [hi i k]; exact h.2.2 i k
  · rw [← hi i k]; exact hr.1 i k
  · rw [hr.2, List.append_nil]
    unfold entriesOf
    congr 1
    refine List.map_congr_left fun i hi => ?_
    rw [List.mem_range] at hi
    rw [hd, bytesAt_bytesAt (by omega), Nat.add_assoc]

/-! ## Items -/

theorem leNat_zeros (n : Nat) : leNat (List.replicate n 0#8) = 0 := by
  induction n with
  | zero => rfl
  | succ n ih => rw [List.replicate_succ]; simp [leNat, ih]

theorem field_padded {l : List Byte} {n a k : Nat} (h : a + k ≤ n) :
    field (l.take n ++ List.replicate (n - (l.take n).length) 0#8) a k = field l a k := by
  unfold field bytesAt
  by_cases hn : n ≤ l.length
  · rw [List.length_take, Nat.min_eq_left hn, Nat.sub_self, List.replicate_zero, List.append_nil, List.drop_take, List.take_take,
      Nat.min_eq_left (by omega)]
  · rw [List.take_of_length_le (l := l) (i := n) (by omega), List.drop_append, List.take_append, List.drop_replicate, List.take_replicate, leNat_append, leNat_zeros]
    omega

theorem readItem_good {file : List Byte} {b : Nat} {p : Place} {n : Nat} (h64 : b + p.offset < 2 ^ 64) :
    R.Good (p.size = n) (readItem file b p n) (fun d => p.size = n ∧ d.length = n ∧
      ∀ a k, a + k ≤ n → field d a k = field file (b + p.offset + a) k) := by
  unfold readItem
  refine (R.Good.require id).bind fun _ h => ?_
  rw [R.addU_ok h64, R.ok_bind]
  refine R.Good.ok ⟨h, ?_, fun a k hk => ?_⟩
  · unfold Blocks.readAt
    rw [List.length_append, List.length_replicate, List.length_take]; omega
  · unfold Blocks.readAt
    rw [field_padded hk]
    unfold field bytesAt
    rw [List.drop_drop]

section
variable {file : List Byte}

/-- The items of a file are read as these. -/
def itemsOf (file : List Byte) : List Place := entriesOf file itemOf (base file + 32) (items file)

/-- What is known of the place of the metadata. -/
structure Based (file : List Byte) : Prop where
  inside : base file + 65536 ≤ file.length
  number : items file ≤ 2047
  small : file.length < 2 ^ 63

theorem field_lt (d : List Byte) (a n : Nat) : field d a n < 256 ^ n := by
  unfold field bytesAt
  refine Nat.lt_of_lt_of_le (leNat_lt _) (Nat.pow_le_pow_right (by omega) ?_)
  rw [List.length_take]; omega

/-- An item as found. -/
theorem find_items (hb : Based file) {id : List Byte} (hid : id.length = 16) :
    (∃ p, find (itemsOf file) (uuidOf id) = some p ∧ item file id = some (base file + p.offset, p.size) ∧ base file + p.offset < 2 ^ 64) ∨
    (find (itemsOf file) (uuidOf id) = none ∧ item file id = none) := by
  unfold itemsOf
  rw [find_entries (f := itemOf) (fun _ => rfl) (by have := hb.inside; have := hb.number; omega) hid]
  unfold item
  cases lastEntry file (base file + 32) (items file) id with
  | none => exact Or.inr ⟨rfl, rfl⟩
  | some e =>
    refine Or.inl ⟨itemOf e, rfl, rfl, ?_⟩
    have := field_lt e 16 4
    have := hb.inside; have := hb.small
    show base file + field e 16 4 < 2 ^ 64
    omega

theorem required_good (hb : Based file) {id : List Byte} (hid : id.length = 16) :
    R.Good (∃ q, item file id = some q) (required (itemsOf file) (uuidOf id)) (fun p => item file id = some (base file + p.offset, p.size) ∧
      base file + p.offset < 2 ^ 64) := by
  unfold required
  rcases find_items hb hid with ⟨p, h1, h2, h3⟩ | ⟨h1, h2⟩
  · rw [h1]; exact R.Good.ok ⟨h2, h3⟩
  · rw [h1]; exact R.Good.err (by rw [h2]; rintro ⟨q, h⟩; cases h)

theorem parameters_good (hb : Based file) :
    R.Good ((∃ o, item file parametersItem = some (o, 8)) ∧ 2 ^ 20 ≤ blockSize file ∧ blockSize file ≤ 2 ^ 28)
      (parameters file (base file) (itemsOf file))
      (fun r => ((∃ o, item file parametersItem = some (o, 8)) ∧ 2 ^ 20 ≤ blockSize file ∧ blockSize file ≤ 2 ^ 28) ∧
        r = (blockSize file, flags file)) := by
  unfold parameters
  rw [show parametersId = uuidOf parametersItem from by decide +kernel]
  refine ((required_good hb (by decide +kernel)).mono (fun h => let ⟨_, k⟩ := h.1; ⟨_, k⟩) fun _ h => h).bind fun p ⟨h1, h2⟩ => ?_
  refine ((readItem_good h2).mono (fun h => ?_) fun _ h => h).bind fun d ⟨h3, h4, h5⟩ => ?_
  · obtain ⟨⟨o, h⟩, -⟩ := h
    rw [h1, Option.some.injEq, Prod.mk.injEq] at h; exact h.2
  have e1 : blockSize file = field d 0 4 := by
    rw [h5 _ _ (by omega)]; unfold blockSize itemValue; rw [h1]
  have e2 : flags file = field d 4 4 := by
    rw [h5 _ _ (by omega)]; unfold flags itemValue; rw [h1]
  rw [u32le_field (by omega), R.ok_bind, u32le_field (by omega), R.ok_bind, ← e1, ← e2]
  refine (R.Good.require (fun h => by have := h.2; omega)).bind fun _ h6 => R.Good.ok ⟨⟨⟨_, h1.trans (by rw [h3])⟩, by omega⟩, rfl⟩

theorem diskSize_good (hb : Based file) :
    R.Good (∃ o, item file diskSizeItem = some (o, 8)) (diskSize file (base file) (itemsOf file))
      (fun r => (∃ o, item file diskSizeItem = some (o, 8)) ∧ r = mediaSize file) := by
  unfold diskSize
  rw [show diskSizeId = uuidOf diskSizeItem from by decide +kernel]
  refine ((required_good hb (by decide +kernel)).mono (fun h => let ⟨_, k⟩ := h; ⟨_, k⟩) fun _ h => h).bind fun p ⟨h1, h2⟩ => ?_
  refine ((readItem_good h2).mono (fun h => ?_) fun _ h => h).bind fun d ⟨h3, h4, h5⟩ => ?_
  · obtain ⟨o, h⟩ := h
    rw [h1, Option.some.injEq, Prod.mk.injEq] at h; exact h.2
  rw [u64le_field (by omega), h5 _ _ (by omega)]
  refine R.Good.ok ⟨⟨_, h1.trans (by rw [h3])⟩, ?_⟩
  unfold mediaSize itemValue; rw [h1]

theorem sectorSize_good {b : Nat} {p : Place} (h64 : b + p.offset < 2 ^ 64) :
    R.Good (p.size = 4 ∧ (field file (b + p.offset) 4 = 512 ∨ field file (b + p.offset) 4 = 4096)) (Vhdx.sectorSize file b p)
      (fun r => (p.size = 4 ∧ (field file (b + p.offset) 4 = 512 ∨ field file (b + p.offset) 4 = 4096)) ∧ r = field file (b + p.offset) 4) := by
  unfold Vhdx.sectorSize
  refine ((readItem_good h64).mono (fun h => h.1) fun _ h => h).bind fun d ⟨h3, h4, h5⟩ => ?_
  rw [u32le_field (by omega), R.ok_bind, h5 _ _ (by omega), Nat.add_zero]
  refine (R.Good.require (fun h => by omega)).bind fun _ h6 => R.Good.ok ⟨⟨h3, by omega⟩, rfl⟩

theorem logicalSector_good (hb : Based file) :
    R.Good ((∃ o, item file logicalItem = some (o, 4)) ∧ (VhdxFile.sectorSize file = 512 ∨ VhdxFile.sectorSize file = 4096))
      (logicalSector file (base file) (itemsOf file))
      (fun r => ((∃ o, item file logicalItem = some (o, 4)) ∧ (VhdxFile.sectorSize file = 512 ∨ VhdxFile.sectorSize file = 4096)) ∧
        r = VhdxFile.sectorSize file) := by
  unfold logicalSector
  rw [show logicalId = uuidOf logicalItem from by decide +kernel]
  refine ((required_good hb (by decide +kernel)).mono (fun h => let ⟨_, k⟩ := h.1; ⟨_, k⟩) fun _ h => h).bind fun p ⟨h1, h2⟩ => ?_
  have e : VhdxFile.sectorSize file = field file (base file + p.offset) 4 := by
    unfold VhdxFile.sectorSize itemValue; rw [h1]; rfl
  rw [e]
  refine (sectorSize_good h2).mono (fun h => ⟨?_, h.2⟩) fun r h => ⟨⟨⟨_, h1.trans (by rw [h.1.1])⟩, h.1.2⟩, h.2⟩
  obtain ⟨⟨o, h⟩, -⟩ := h
  rw [h1, Option.some.injEq, Prod.mk.injEq] at h; exact h.2

theorem physicalSector_good (hb : Based file) :
    R.Good (∀ o n, item file physicalItem = some (o, n) → n = 4 ∧ (field file o 4 = 512 ∨ field file o 4 = 4096))
      (physicalSector file (base file) (itemsOf file))
      (fun _ => ∀ o n, item file physicalItem = some (o, n) → n = 4 ∧ (field file o 4 = 512 ∨ field file o 4 = 4096)) := by
  unfold physicalSector
  rw [show physicalId = uuidOf physicalItem from by decide +kernel]
  rcases find_items hb (id := physicalItem) (by decide +kernel) with ⟨p, h1, h2, h3⟩ | ⟨h1, h2⟩
  · rw [h1, h2]
    refine R.Good.bind ((sectorSize_good h3).mono (fun h => h _ _ rfl) fun _ h => h) fun r h => R.Good.ok ?_
    rintro o n k
    cases k
    exact h.1
  · rw [h1, h2]
    exact R.Good.ok nofun

theorem diskIdentifier_good (hb : Based file) :
    R.Good (∃ o, item file diskIdItem = some (o, 16)) (diskIdentifier file (base file) (itemsOf file))
      (fun _ => ∃ o, item file diskIdItem = some (o, 16)) := by
  unfold diskIdentifier
  rw [show diskIdId = uuidOf diskIdItem from by decide +kernel]
  refine ((required_good hb (by decide +kernel)).mono (fun h => let ⟨_, k⟩ := h; ⟨_, k⟩) fun _ h => h).bind fun p ⟨h1, h2⟩ => ?_
  refine ((readItem_good h2).mono (fun h => ?_) fun _ h => h).bind fun d ⟨h3, h4, h5⟩ => ?_
  · obtain ⟨o, h⟩ := h
    rw [h1, Option.some.injEq, Prod.mk.injEq] at h; exact h.2
  rw [uuid_ok h4, R.ok_bind]
  exact R.Good.ok ⟨_, h1.trans (by rw [h3])⟩

/-! ## Parent locator -/

/-- An entry of a locator that can be read. -/
def EntryOk (d : List Byte) (i : Nat) : Prop := 20 + 12 * (i + 1) ≤ d.length ∧ PlaceOk d (keyPlace d i) ∧ PlaceOk d (valuePlace d i)

/-- A pair as read. -/
def pairOf (d : List Byte) (i : Nat) : List Nat × List Nat :=
  (Path.ucs2Text (words (bytesAt d (keyPlace d i).1 (keyPlace d i).2)), words (bytesAt d (valuePlace d i).1 (valuePlace d i).2))

theorem locatorEntry_good {d : List Byte} {i : Nat} (he : (keyPlace d i).2 % 2 = 0 ∧ (valuePlace d i).2 % 2 = 0) :
    R.Good (EntryOk d i) (locatorEntry d (20 + 12 * i)) (fun p => EntryOk d i ∧ p = pairOf d i) := by
  unfold locatorEntry
  refine (R.Good.require (fun h => by have := h.1; omega)).bind fun _ h1 => ?_
  rw [slice_bytesAt (by omega), R.ok_bind]
  have hl := bytesAt_length (data := d) (a := 20 + 12 * i) (n := 12) (by omega)
  rw [u32le_field (by omega), R.ok_bind, u32le_field (by omega), R.ok_bind, u16le_field (by omega), R.ok_bind, u16le_field (by omega), R.ok_bind,
    field_at (by omega), field_at (by omega), field_at (by omega), field_at (by omega), Nat.add_zero]
  change R.Good _ (do
    R.require (¬ ((keyPlace d i).1 < 20 ∨ d.length ≤ (keyPlace d i).1))
    R.require (¬ d.length - (keyPlace d i).1 < (keyPlace d i).2)
    R.require (¬ ((valuePlace d i).1 < 20 ∨ d.length ≤ (valuePlace d i).1))
    R.require (¬ d.length - (valuePlace d i).1 < (valuePlace d i).2)
    let key ← Ucs2.fromLeBytes (← R.slice d (keyPlace d i).1 ((keyPlace d i).1 + (keyPlace d i).2))
    let value ← Ucs2.fromLeBytes (← R.slice d (valuePlace d i).1 ((valuePlace d i).1 + (valuePlace d i).2))
    return (Path.ucs2Text key, value)) _
  refine (R.Good.require (fun h => by have := h.2.1; unfold PlaceOk at this; omega)).bind fun _ h2 => ?_
  refine (R.Good.require (fun h => by have := h.2.1; unfold PlaceOk at this; omega)).bind fun _ h3 => ?_
  refine (R.Good.require (fun h => by have := h.2.2; unfold PlaceOk at this; omega)).bind fun _ h4 => ?_
  refine (R.Good.require (fun h => by have := h.2.2; unfold PlaceOk at this; omega)).bind fun _ h5 => ?_
  rw [slice_bytesAt (by omega), R.ok_bind, Props.C15_decode_le _ (by rw [bytesAt_length (by omega)]; exact he.1), R.ok_bind,
    slice_bytesAt (by omega), R.ok_bind, Props.C15_decode_le _ (by rw [bytesAt_length (by omega)]; exact he.2), R.ok_bind]
  refine R.Good.ok ⟨⟨by omega, ?_, ?_⟩, rfl⟩ <;> (unfold PlaceOk; omega)

theorem locatorLoop_good {d : List Byte} (n k : Nat) (acc : List (List Nat × List Nat))
    (he : ∀ i, i < k + n → (keyPlace d i).2 % 2 = 0 ∧ (valuePlace d i).2 % 2 = 0) :
    R.Good (∀ i, i < n → EntryOk d (k + i)) (locatorLoop d n (20 + 12 * k) acc)
      (fun r => (∀ i, i < n → EntryOk d (k + i)) ∧ r = ((List.range n).map fun i => pairOf d (k + i)).reverse ++ acc) := by
  induction n generalizing k acc with
  | zero => exact R.Good.ok ⟨fun i hi => absurd hi (by omega), rfl⟩
  | succ n ih =>
    unfold locatorLoop
    refine ((locatorEntry_good (he k (by omega))).mono (fun h => h 0 (by omega)) fun _ h => h).bind fun p hp => ?_
    have hsh : ∀ i, k + 1 + i = k + (i + 1) := fun i => by omega
    refine (ih (k + 1) (p :: acc) (fun i hi => he i (by omega))).mono (fun h i hi => ?_) fun r hr => ⟨fun i hi => ?_, ?_⟩
    · rw [hsh]; exact h (i + 1) (by omega)
    · cases i with
      | zero => exact hp.1
      | succ i => rw [← hsh]; exact hr.1 i (by omega)
    · rw [hr.2, List.range_succ_eq_map, List.map_cons, List.reverse_cons, List.append_assoc, hp.2, List.map_map]
      simp only [hsh]
      rfl

/-- The pairs as read, the last first. -/
def pairsOf (d : List Byte) : List (List Nat × List Nat) := ((pairs d).map fun p => (Path.ucs2Text p.1, p.2)).reverse

theorem readLocator_good {o n : Nat}
    (he : ∀ i, i < field (bytesAt file o n) 18 2 → (keyPlace (bytesAt file o n) i).2 % 2 = 0 ∧ (valuePlace (bytesAt file o n) i).2 % 2 = 0) :
    R.Good (o + n ≤ file.length ∧ LocatorOk (bytesAt file o n)) (readLocator file n o)
      (fun r => (o + n ≤ file.length ∧ LocatorOk (bytesAt file o n)) ∧ r = pairsOf (bytesAt file o n)) := by
  unfold readLocator
  refine (R.Good.require (fun h => ?_)).bind fun _ h1 => ?_
  · have := h.2.size
    rw [bytesAt_length h.1] at this; omega
  refine (readExactAt_good.mono (fun h => h.1) fun _ h => h).bind fun d hd => ?_
  obtain ⟨hd, h2, h3⟩ := hd
  have hin := h3 (by omega)
  rw [← hd] at he ⊢
  rw [slice_bytesAt' (n := 16) rfl (by omega), R.ok_bind]
  refine (R.Good.require (fun h => h.2.kind)).bind fun _ h4 => ?_
  rw [u16le_field (by omega), R.ok_bind]
  refine (locatorLoop_good (d := d) (field d 18 2) 0 [] (by simpa using he)).mono (fun h i hi => ?_) fun r hr => ⟨⟨hin, ⟨by omega, h4, fun i hi => ?_⟩⟩, ?_⟩
  · rw [Nat.zero_add]; exact h.2.inside i hi
  · have := hr.1 i hi
    rw [Nat.zero_add] at this; exact this
  · rw [hr.2, List.append_nil]
    unfold pairsOf pairs
    rw [List.map_map]
    simp only [Nat.zero_add]
    rfl

theorem ucs2Text_cons (e : Nat) (s : List Nat) : Path.ucs2Text (e :: s) =
    (if Display.isChar e then (if e = 0x5c then [0x5c, 0x5c] else [e]) else [0x5c, 0x7b] ++ Display.hex 4 e ++ [0x7d]) ++ Path.ucs2Text s := by
  unfold Path.ucs2Text
  rw [List.flatMap_cons]

theorem ucs2Text_eq {s t : List Nat} (ht : ∀ c ∈ t, c < 0x80 ∧ c ≠ 0x5c) : Path.ucs2Text s = t ↔ s = t := by
  induction s generalizing t with
  | nil => unfold Path.ucs2Text; simp
  | cons e s ih =>
    rw [ucs2Text_cons]
    cases t with
    | nil =>
      simp only [List.append_eq_nil_iff, reduceCtorEq, iff_false]
      split <;> [split; skip] <;> simp
    | cons c t =>
      obtain ⟨hc, hc'⟩ := ht c (by simp)
      by_cases h1 : Display.isChar e = true
      · rw [if_pos h1]
        by_cases h2 : e = 0x5c
        · rw [if_pos h2]
          simp only [List.cons_append, List.cons.injEq]
          constructor
          · rintro ⟨h, -⟩; exact absurd h.symm hc'
          · rintro ⟨h, -⟩; exact absurd (h.symm.trans h2) hc'
        · rw [if_neg h2]
          simp only [List.cons_append, List.nil_append, List.cons.injEq]
          rw [ih fun x hx => ht x (by simp [hx])]
      · rw [if_neg h1]
        simp only [List.cons_append, List.cons.injEq]
        constructor
        · rintro ⟨h, -⟩; exact absurd h.symm hc'
        · rintro ⟨h, -⟩
          subst h
          exact absurd (by unfold Display.isChar; simp; omega) h1

theorem findText_pairs {d : List Byte} (key : String) (hk : ∀ c ∈ key.toList.map Char.toNat, c < 0x80 ∧ c ≠ 0x5c) :
    findText (pairsOf d) key = ((pairs d).reverse.find? fun p => p.1 = key.toList.map Char.toNat).map Prod.snd := by
  unfold findText pairsOf
  rw [← List.map_reverse, List.find?_map, Option.map_map]
  have : ((fun p : List Nat × List Nat => decide (p.1 = key.toList.map Char.toNat)) ∘ fun p : List Nat × List Nat => (Path.ucs2Text p.1, p.2)) =
      fun p : List Nat × List Nat => decide (p.1 = key.toList.map Char.toNat) := by
    funext p
    simp only [Function.comp]
    rw [decide_eq_decide]
    exact ucs2Text_eq hk
  rw [this]
  rfl

theorem utf8_ascii (t : List Byte) (h : ∀ b ∈ t, b.toNat < 0x80) : (t.map BitVec.toNat).flatMap Path.utf8 = t := by
  induction t with
  | nil => rfl
  | cons b t ih =>
    rw [List.map_cons, List.flatMap_cons, ih fun x hx => h x (by simp [hx])]
    unfold Path.utf8
    rw [if_pos (h b (by simp))]
    simp

theorem fromString_braced {t : List Byte} (h : isUuidText t) : Uuid.fromString ([0x7b#8] ++ t ++ [0x7d#8]) = Uuid.fromString t := by
  have hasc := Props.isUuidText_ascii h
  have hlen := h.1
  have hhead : t.head? ≠ some 0x7b#8 := by
    have h0 := h.2 0 (by omega)
    rw [if_neg (by omega)] at h0
    intro e
    rw [List.head?_eq_getElem?] at e
    rw [List.getD_eq_getElem?_getD, e] at h0
    revert h0; decide
  have hall : ∀ b ∈ [0x7b#8] ++ t ++ [0x7d#8], b.toNat < 0x80 := by
    intro b hb
    simp only [List.mem_append, List.mem_singleton] at hb
    rcases hb with (rfl | hb) | rfl
    · decide
    · exact hasc b hb
    · decide
  unfold Uuid.fromString
  rw [if_pos ⟨rfl, List.getLast?_concat⟩, if_neg fun hh => hhead hh.1, sliceStr_ascii _ hall 1 _ (by simp) (by simp)]
  have : List.take (([0x7b#8] ++ t ++ [0x7d#8]).length - 1 - 1) (List.drop 1 ([0x7b#8] ++ t ++ [0x7d#8])) = t := by
    simp
  rw [this]
  rfl

/-- The parent as read. -/
def Parent (file : List Byte) (r : Option Uuid.Uuid × Option (List Nat)) : Prop :=
  (parentValue file "parent_linkage" = none → r.1 = none) ∧
  (∀ s t, parentValue file "parent_linkage" = some s → Braced s t → ∃ u, r.1 = some u ∧ Uuid.toString u = t.map lower) ∧
  r.2 = VhdxFile.parentName file

theorem linkage_good {d : List Byte} (hd : locator file = some d) (ht : ∀ s, parentValue file "parent_linkage" = some s → ∃ t, Braced s t) :
    R.Good True (linkage (pairsOf d)) (fun r => (parentValue file "parent_linkage" = none → r = none) ∧
      (∀ s t, parentValue file "parent_linkage" = some s → Braced s t → ∃ u, r = some u ∧ Uuid.toString u = t.map lower)) := by
  unfold linkage
  have e : findText (pairsOf d) "parent_linkage" = parentValue file "parent_linkage" := by
    rw [findText_pairs _ (by decide +kernel)]
    unfold parentValue
    rw [hd]
    rfl
  rw [e]
  cases hp : parentValue file "parent_linkage" with
  | none => exact R.Good.ok ⟨fun _ => rfl, nofun⟩
  | some s =>
    obtain ⟨t, h1, h2⟩ := ht s hp
    have hs : ∀ c ∈ s, c < 0x80 ∧ c ≠ 0x5c := by
      rw [h2]
      intro c hc
      simp only [List.mem_append, List.mem_singleton, List.mem_map] at hc
      rcases hc with (rfl | ⟨b, hb, rfl⟩) | rfl
      · decide
      · refine ⟨Props.isUuidText_ascii h1 b hb, fun hb' => ?_⟩
        obtain ⟨i, hi, rfl⟩ := List.getElem_of_mem hb
        have := h1.2 i (by rw [← h1.1]; exact hi)
        have e' : t.getD i 0 = t[i] := by simp [List.getD_eq_getElem?_getD, hi]
        have e5 : t[i] = 0x5c#8 := BitVec.eq_of_toNat_eq hb'
        rw [e', e5] at this
        revert this
        split <;> decide
      · decide
    simp only
    rw [(ucs2Text_eq hs).2 rfl, h2, show [0x7b] ++ t.map BitVec.toNat ++ [0x7d] = ([0x7b#8] ++ t ++ [0x7d#8]).map BitVec.toNat by simp,
      utf8_ascii _ (by
        intro b hb
        simp only [List.mem_append, List.mem_singleton] at hb
        rcases hb with (rfl | hb) | rfl
        · decide
        · exact Props.isUuidText_ascii h1 b hb
        · decide), fromString_braced h1]
    obtain ⟨u, hu, -, hu'⟩ := Props.C13_parse_text t h1
    rw [hu, R.ok_bind]
    refine R.Good.ok ⟨nofun, fun s' t' h3 h4 => ⟨u, rfl, ?_⟩⟩
    cases h3
    have : t' = t := by
      have : [0x7b] ++ t'.map BitVec.toNat ++ [0x7d] = [0x7b] ++ t.map BitVec.toNat ++ [0x7d] := by rw [← h4.2]; simp
      have := List.append_cancel_left (List.append_cancel_right this)
      exact (List.map_inj_right (fun a b h => BitVec.eq_of_toNat_eq h)).1 this
    rw [this, hu']

theorem parentName_eq {d : List Byte} (hd : locator file = some d) : Vhdx.parentName (pairsOf d) = VhdxFile.parentName file := by
  unfold Vhdx.parentName VhdxFile.parentName
  rw [findText_pairs _ (by decide +kernel), findText_pairs _ (by decide +kernel), findText_pairs _ (by decide +kernel)]
  unfold parentValue
  rw [hd]
  simp only [Option.bind_some]
  generalize Option.map Prod.snd _ = a
  generalize Option.map Prod.snd _ = b
  cases a <;> cases b <;> rfl

theorem parent_good (hb : Based file) (ht : Texts file) :
    R.Good (∀ o n, item file locatorItem = some (o, n) → o + n ≤ file.length ∧ LocatorOk (bytesAt file o n))
      (parent file (base file) (itemsOf file))
      (fun r => (∀ o n, item file locatorItem = some (o, n) → o + n ≤ file.length ∧ LocatorOk (bytesAt file o n)) ∧ Parent file r) := by
  unfold parent
  rw [show locatorId = uuidOf locatorItem from by decide +kernel]
  rcases find_items hb (id := locatorItem) (by decide +kernel) with ⟨p, h1, h2, h3⟩ | ⟨h1, h2⟩
  · have hloc : locator file = some (bytesAt file (base file + p.offset) p.size) := by unfold locator; rw [h2]; rfl
    rw [h1, h2]
    simp only
    rw [R.addU_ok h3, R.ok_bind]
    refine R.Good.bind ((readLocator_good (ht.even _ hloc)).mono (fun h => h _ _ rfl) fun _ h => h) fun r h => ?_
    rw [h.2]
    refine R.Good.bind ((linkage_good hloc ht.linkage).mono (fun _ => trivial) fun _ h => h) fun u hu => R.Good.ok ⟨?_, hu.1, hu.2, parentName_eq hloc⟩
    rintro o n k
    cases k
    exact h.1
  · have hloc : locator file = none := by unfold locator; rw [h2]; rfl
    have hv : ∀ key, parentValue file key = none := fun key => by unfold parentValue; rw [hloc]; rfl
    rw [h1, h2]
    refine R.Good.ok ⟨nofun, fun _ => rfl, fun s t h => ?_, ?_⟩
    · rw [hv] at h; cases h
    · unfold VhdxFile.parentName; simp only [hv]; rfl

/-- The metadata of a file. -/
def metadataOf (file : List Byte) : Metadata :=
  ⟨blockSize file, flags file, mediaSize file, VhdxFile.sectorSize file, ((region file batRegion).map Prod.fst).getD 0,
    ((region file batRegion).map Prod.snd).getD 0⟩

/-- The file as opened. -/
structure Opened (file : List Byte) (v : File) : Prop where
  identifier : v.identifier = uuidOf (bytesAt file (current file + 32) 16)
  version : v.version = field file (current file + 66) 2
  metadata : v.metadata = metadataOf file
  image : (v.image, v.tree) = (imageOf v.metadata, treeOf v.metadata)
  parent : Parent file (v.parentIdentifier, v.parentName)

theorem find_region (h : RegionsOk file true 196608) {id : List Byte} (hid : id.length = 16) :
    (∃ p, find (entriesOf file regionOf (196608 + 16) (field file (196608 + 8) 4)) (uuidOf id) = some p ∧
      region file id = some (p.offset, p.size) ∧ p.size < 2 ^ 32) ∨
    (find (entriesOf file regionOf (196608 + 16) (field file (196608 + 8) 4)) (uuidOf id) = none ∧ region file id = none) := by
  rw [find_entries (f := regionOf) (fun _ => rfl) (by have := h.inside; have := h.number; omega) hid]
  change (∃ p, Option.map regionOf (lastEntry file (regions1 + 16) (field file (regions1 + 8) 4) id) = some p ∧ _) ∨
    (Option.map regionOf (lastEntry file (regions1 + 16) (field file (regions1 + 8) 4) id) = none ∧ _)
  unfold region
  cases lastEntry file (regions1 + 16) (field file (regions1 + 8) 4) id with
  | none => exact Or.inr ⟨rfl, rfl⟩
  | some e => exact Or.inl ⟨regionOf e, rfl, rfl, field_lt e 24 4⟩

theorem openFile_good (hU : file.length < 2 ^ 63) (hn : items file ≤ 2047) (ht : Texts file) :
    R.Good (Valid file true) (openFile file) (fun v => Valid file true ∧ Opened file v) := by
  unfold openFile
  refine ((readFileHeader_good file).mono (fun h => ⟨by have : 65536 + 4096 ≤ _ := h.header1.inside; omega, h.contents.signature⟩) fun _ h => h).bind fun _ k0 => ?_
  refine ((readImageHeader_good file 65536).mono (fun h => h.header1) fun _ h => h).bind fun p ⟨k1, hp⟩ => ?_
  refine ((readImageHeader_good file 131072).mono (fun h => h.header2) fun _ h => h).bind fun s ⟨k2, hs⟩ => ?_
  refine ((readRegions_good file 196608).mono (fun h => h.regions1) fun _ h => h).bind fun rs ⟨k3, hr⟩ => ?_
  refine ((readRegions_good file 262144).mono (fun h => h.regions2) fun _ h => h).bind fun _ ⟨k4, _⟩ => ?_
  rw [hr, show metadataId = uuidOf metadataRegion from by decide +kernel, show batId = uuidOf batRegion from by decide +kernel]
  have hcur : currentHeader p s = ⟨field file (current file + 8) 8, uuidOf (bytesAt file (current file + 32) 16), field file (current file + 66) 2⟩ := by
    rw [hp, hs]
    unfold currentHeader current
    simp only [show header1 = 65536 from rfl, show header2 = 131072 from rfl]
    by_cases h : field file (131072 + 8) 8 < field file (65536 + 8) 8
    · rw [if_pos h, if_pos h]
    · rw [if_neg h, if_neg h]
  simp only [hcur]
  refine R.Good.bind (P := fun m => region file metadataRegion = some (m.offset, m.size)) ?_ fun m hm => ?_
  · unfold required
    rcases find_region k3 (id := metadataRegion) (by decide +kernel) with ⟨q, h1, h2, -⟩ | ⟨h1, h2⟩
    · rw [h1]; exact R.Good.ok h2
    · rw [h1]
      refine R.Good.err fun h => ?_
      obtain ⟨o, n, h, -⟩ := h.contents.metadata
      rw [h2] at h; cases h
  have hbase : base file = m.offset := by unfold base; rw [hm]; rfl
  refine (R.Good.require (fun h => ?_)).bind fun _ k5 => ?_
  · obtain ⟨o, n, h, h', -⟩ := h.contents.metadata
    rw [hm, Option.some.injEq, Prod.mk.injEq] at h
    omega
  rw [← hbase]
  refine ((readItems_good file (base file) hn).mono (fun h => ?_) fun _ h => h).bind fun is ⟨k6, hi⟩ => ?_
  · refine ⟨?_, ?_, h.contents.offsets⟩ <;>
    · obtain ⟨o, n, h, -, h1, h2⟩ := h.contents.metadata
      rw [hm, Option.some.injEq, Prod.mk.injEq] at h
      rw [hbase, h.1]; assumption
  have hb : Based file := ⟨k6.1, hn, hU⟩
  change is = itemsOf file at hi
  rw [hi]
  refine R.Good.bind ((parameters_good hb).mono (fun h => ⟨h.contents.parameters, h.contents.blockSize⟩) fun _ h => h) fun r ⟨k7, hr⟩ => ?_
  rw [hr]
  simp only
  refine R.Good.bind ((diskSize_good hb).mono (fun h => h.contents.diskSize) fun _ h => h) fun r ⟨k8, hr⟩ => ?_
  rw [hr]
  refine R.Good.bind ((logicalSector_good hb).mono (fun h => ⟨h.contents.logical, h.contents.sectorSize⟩) fun _ h => h) fun r ⟨k9, hr⟩ => ?_
  rw [hr]
  refine R.Good.bind ((physicalSector_good hb).mono (fun h => h.contents.physical) fun _ h => h) fun _ k10 => ?_
  refine R.Good.bind ((diskIdentifier_good hb).mono (fun h => h.contents.diskId) fun _ h => h) fun _ k11 => ?_
  refine R.Good.bind ((parent_good hb ht).mono (fun h => h.contents.locator) fun _ h => h) fun pr ⟨k12, hpr⟩ => ?_
  obtain ⟨pid, pname⟩ := pr
  simp only
  refine R.Good.bind (P := fun m => region file batRegion = some (m.offset, m.size) ∧ m.size < 2 ^ 32) ?_ fun b ⟨hbt, h32⟩ => ?_
  · unfold required
    rcases find_region k3 (id := batRegion) (by decide +kernel) with ⟨q, h1, h2, h3⟩ | ⟨h1, h2⟩
    · rw [h1]; exact R.Good.ok ⟨h2, h3⟩
    · rw [h1]
      refine R.Good.err fun h => ?_
      obtain ⟨o, n, h, -⟩ := h.contents.table
      rw [h2] at h; cases h
  have hmd : (⟨blockSize file, flags file, mediaSize file, VhdxFile.sectorSize file, b.offset, b.size⟩ : Metadata) = metadataOf file := by
    unfold metadataOf; rw [hbt]; rfl
  rw [hmd]
  have hsz : (metadataOf file).tableSize = b.size := by unfold metadataOf; rw [hbt]; rfl
  refine R.Good.bind ((openImage_good (metadataOf file) (by rw [hsz]; exact h32)).mono (fun h => ⟨h.contents.blockSize, h.contents.sectorSize, ?_⟩) fun _ h => h)
    fun it ⟨hit, ha⟩ => ?_
  · obtain ⟨o, n, h1, h2⟩ := h.contents.table
    rw [hbt, Option.some.injEq, Prod.mk.injEq] at h1
    rw [hsz, h1.2]; exact h2
  obtain ⟨image, tree⟩ := it
  refine R.Good.ok ⟨⟨⟨k0, ⟨m.offset, m.size, hm, by omega, by rw [← hbase]; exact k6.1, by rw [← hbase]; exact k6.2.1⟩, k6.2.2, k7.1, k7.2, k8, k9.1, k9.2, k10, k11, k12,
    ⟨b.offset, b.size, hbt, ?_⟩⟩, k1, k2, k3, k4⟩, rfl, rfl, rfl, hit, hpr⟩
  have := ha.media
  rw [hsz] at this; exact this

end

end Keramics.Vhdx
