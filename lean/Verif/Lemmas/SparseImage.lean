import Verif.Lemmas.Blocks
import Verif.Lemmas.EqualBlocks
import Verif.Lemmas.Volumes
import Verif.Model.SparseImage
import Verif.Spec.SparseImage

/-! # Lemmas: sparse disk images -/

namespace Keramics.SparseImage
open Keramics.Spec Keramics.Spec.SparseImage Keramics.BlockTree

theorem fieldBe_bytesAt {file : List Byte} {a n : Nat} (h : a + n ≤ 4096) : fieldBe (bytesAt file 0 4096) a n = fieldBe file a n := by
  unfold fieldBe
  rw [bytesAt_bytesAt h, Nat.zero_add]

theorem fieldBe_lt (d : List Byte) (a n : Nat) : fieldBe d a n < 256 ^ n := by
  unfold fieldBe beNat
  refine Nat.lt_of_lt_of_le (leNat_lt _) (Nat.pow_le_pow_right (by omega) ?_)
  simp [bytesAt]

/-- The stored bands: number of the media band and data offset. -/
def stored (file : List Byte) (n : Nat) : List (Nat × Nat) :=
  (List.range n).filterMap fun i => if number file i = 0 then none else some (number file i - 1, 4096 + i * bandSize file)

theorem stored_succ (file : List Byte) (n : Nat) : stored file (n + 1) = stored file n ++
    (if number file n = 0 then [] else [(number file n - 1, 4096 + n * bandSize file)]) := by
  unfold stored
  rw [List.range_succ, List.filterMap_append]
  by_cases h : number file n = 0 <;> simp [h]

theorem mem_stored {file : List Byte} {n b off : Nat} : (b, off) ∈ stored file n ↔
    ∃ i, i < n ∧ number file i = b + 1 ∧ off = 4096 + i * bandSize file := by
  unfold stored
  simp only [List.mem_filterMap, List.mem_range]
  constructor
  · rintro ⟨i, hi, h⟩
    split at h
    · cases h
    · simp only [Option.some.injEq, Prod.mk.injEq] at h
      exact ⟨i, hi, by omega, h.2.symm⟩
  · rintro ⟨i, hi, h1, rfl⟩
    refine ⟨i, hi, ?_⟩
    rw [if_neg (by omega), h1]
    rfl

theorem mem_stored_fst {file : List Byte} {n b : Nat} : b ∈ (stored file n).map Prod.fst ↔ ∃ i, i < n ∧ number file i = b + 1 := by
  simp only [List.mem_map, Prod.exists, exists_and_right, exists_eq_right]
  constructor
  · rintro ⟨off, h⟩
    obtain ⟨i, h1, h2, -⟩ := mem_stored.1 h
    exact ⟨i, h1, h2⟩
  · rintro ⟨i, h1, h2⟩
    exact ⟨_, mem_stored.2 ⟨i, h1, h2, rfl⟩⟩

/-- The first places have bands of the media, and no two the same. -/
def TableTo (file : List Byte) (n : Nat) : Prop :=
  ∀ i, i < n → number file i ≤ bands file ∧ ∀ j, j < i → number file j = number file i → number file i = 0

theorem TableTo.succ {file : List Byte} {n : Nat} : TableTo file (n + 1) ↔ TableTo file n ∧
    (number file n ≤ bands file ∧ ∀ j, j < n → number file j = number file n → number file n = 0) := by
  unfold TableTo
  constructor
  · intro h
    exact ⟨fun i hi => h i (by omega), h n (by omega)⟩
  · rintro ⟨h1, h2⟩ i hi
    rcases Nat.lt_or_ge i n with h | h
    · exact h1 i h
    · have : i = n := by omega
      subst this; exact h2

theorem TableTo.mono {file : List Byte} {m n : Nat} (h : TableTo file n) (hm : m ≤ n) : TableTo file m := fun i hi => h i (by omega)

/-- A tree with the first bands. -/
structure TreeOk (file : List Byte) (n : Nat) (t : Tree Nat) : Prop where
  holds : Holds t (blocksOf (bandSize file) (stored file n))
  block : BlockOk t
  size : bandSize file = t.leafSize * t.perNode
  data : t.dataSize = bands file * bandSize file

theorem addBand_good {file : List Byte} {n : Nat} {t : Tree Nat} (h : TreeOk file n t) (hn : n < 1008) (hpos : 0 < bandSize file) (hbs : bandSize file < 2 ^ 32) :
    R.Good (number file n ≤ bands file ∧ ∀ j, j < n → number file j = number file n → number file n = 0)
      (addBand (bandSize file) n (number file n) t)
      (fun t' => (number file n ≤ bands file ∧ ∀ j, j < n → number file j = number file n → number file n = 0) ∧ TreeOk file (n + 1) t') := by
  unfold addBand
  by_cases h0 : number file n = 0
  · rw [if_pos h0]
    refine R.Good.ok ⟨⟨by omega, fun _ _ _ => h0⟩, ?_⟩
    refine ⟨?_, h.block, h.size, h.data⟩
    rw [stored_succ, if_pos h0, List.append_nil]
    exact h.holds
  rw [if_neg h0]
  have hnum : number file n < 256 ^ 4 := fieldBe_lt _ _ _
  have hprod : (number file n - 1) * bandSize file + bandSize file ≤ 2 ^ 32 * 2 ^ 32 - 2 ^ 32 := by
    have h1 := Nat.mul_le_mul (show number file n - 1 + 1 ≤ 2 ^ 32 by omega) (show bandSize file ≤ 2 ^ 32 - 1 by omega)
    rw [Nat.add_mul, Nat.one_mul] at h1
    omega
  have hrel : n * bandSize file ≤ 1008 * 2 ^ 32 := Nat.mul_le_mul (by omega) (by omega)
  rw [R.mulU_ok (by omega), R.ok_bind, R.mulU_ok (by omega), R.ok_bind, R.addU_ok (by omega), R.ok_bind]
  have hiff : ((number file n - 1) * bandSize file + bandSize file ≤ t.dataSize ∧ number file n - 1 ∉ (stored file n).map Prod.fst) ↔
      (number file n ≤ bands file ∧ ∀ j, j < n → number file j = number file n → number file n = 0) := by
    rw [h.data, mem_stored_fst]
    have e : (number file n - 1) * bandSize file + bandSize file = number file n * bandSize file := by
      rw [← Nat.succ_mul]; congr 1; omega
    rw [e, Nat.mul_le_mul_right_iff hpos]
    constructor
    · rintro ⟨h1, h2⟩
      exact ⟨h1, fun j hj he => absurd ⟨j, hj, by omega⟩ h2⟩
    · rintro ⟨h1, h2⟩
      refine ⟨h1, ?_⟩
      rintro ⟨j, hj, he⟩
      exact h0 (h2 j hj (by omega))
  rcases insert_number h.holds h.block (b := number file n - 1) (v := 4096 + n * bandSize file) h.size (by omega) with
    ⟨hc, t', e, hh, hb, d1, d2, d3⟩ | ⟨hc, e⟩
  · rw [e]
    refine R.Good.ok ⟨hiff.1 hc, ?_, hb, by rw [d2, d3]; exact h.size, by rw [d1]; exact h.data⟩
    rw [stored_succ, if_neg h0]; exact hh
  · rw [e]
    exact R.Good.err fun h => hc (hiff.2 h)

theorem bandsLoop_good {file : List Byte} (hlen : 4096 ≤ file.length) (hpos : 0 < bandSize file) (hbs : bandSize file < 2 ^ 32)
    (n index : Nat) (hle : index + n ≤ 1008) (t : Tree Nat) (ht : TableTo file index) (h : TreeOk file index t) :
    R.Good (TableTo file (index + n)) (bandsLoop (bytesAt file 0 4096) (bandSize file) n index t)
      (fun t' => TableTo file (index + n) ∧ TreeOk file (index + n) t') := by
  induction n generalizing index t with
  | zero => exact R.Good.ok ⟨ht, h⟩
  | succ n ih =>
    unfold bandsLoop
    rw [u32be_field (by rw [bytesAt_length (by omega)]; omega), R.ok_bind, fieldBe_bytesAt (by omega)]
    refine R.Good.bind ((addBand_good h (by omega) hpos hbs).mono (fun hc => (TableTo.succ.1 (hc.mono (by omega))).2) (fun _ h => h)) ?_
    rintro t' ⟨h1, h2⟩
    have := ih (index + 1) (by omega) t' (TableTo.succ.2 ⟨ht, h1⟩) h2
    rwa [show index + 1 + n = index + (n + 1) by omega] at this

/-- An image that was read. -/
structure ImageOk (file : List Byte) (image : Image) : Prop where
  block : image.blockSize = bandSize file
  media : image.mediaSize = sectors file * 512
  tree : TreeOk file (bands file) image.tree

theorem readHeader_good {file : List Byte} (hlen : 64 ≤ file.length) :
    R.Good (bytesAt file 0 4 = [0x73#8, 0x70#8, 0x72#8, 0x73#8] ∧ fieldBe file 8 4 ≠ 0) (readHeader (bytesAt file (0 + 0) 64))
      (fun p => p = (fieldBe file 8 4, fieldBe file 16 4) ∧ bytesAt file 0 4 = [0x73#8, 0x70#8, 0x72#8, 0x73#8] ∧ fieldBe file 8 4 ≠ 0) := by
  unfold readHeader
  have hl : (bytesAt file (0 + 0) 64).length = 64 := bytesAt_length (by omega)
  rw [R.require_true hl, R.ok_bind, slice_bytesAt' (n := 4) rfl (by omega), R.ok_bind, bytesAt_bytesAt (by omega)]
  refine R.Good.bind (R.Good.require fun h => h.1) fun _ hsig => ?_
  rw [u32be_field (by omega), R.ok_bind, u32be_field (by omega), R.ok_bind]
  have e8 : fieldBe (bytesAt file (0 + 0) 64) 8 4 = fieldBe file 8 4 := by unfold fieldBe; rw [bytesAt_bytesAt (by omega)]
  have e16 : fieldBe (bytesAt file (0 + 0) 64) 16 4 = fieldBe file 16 4 := by unfold fieldBe; rw [bytesAt_bytesAt (by omega)]
  rw [e8, e16]
  refine R.Good.bind (R.Good.require fun h => h.2) fun _ h0 => ?_
  exact R.Good.ok ⟨rfl, hsig, h0⟩

theorem openImage_good (file : List Byte) : R.Good (HeaderOk file ∧ TableOk file) (openImage file)
    (fun image => (HeaderOk file ∧ TableOk file) ∧ ImageOk file image) := by
  unfold openImage
  refine R.Good.bind ((readExactAt_good (U := file) (pos := 0) (n := 4096)).mono (fun h => by have := h.1.1; omega) (fun _ h => h)) ?_
  rintro data ⟨rfl, hlen⟩
  rw [show (4096 - 64) / 4 = 1008 from rfl, show 4294967295 / 512 = 8388607 from rfl]
  have hd : (bytesAt file 0 4096).length = 4096 := bytesAt_length (by omega)
  rw [slice_bytesAt' (n := 64) rfl (by omega), R.ok_bind, bytesAt_bytesAt (by omega)]
  refine R.Good.bind ((readHeader_good (file := file) (by omega)).mono (fun h => ⟨h.1.2.1, by have := h.1.2.2.1; unfold bandSize at this; omega⟩) (fun _ h => h)) ?_
  rintro _ ⟨rfl, hsig, h0⟩
  simp only
  have hsec : fieldBe file 16 4 < 256 ^ 4 := fieldBe_lt _ _ _
  have hspb : fieldBe file 8 4 < 256 ^ 4 := fieldBe_lt _ _ _
  refine R.Good.bind (R.Good.require (p := bands file ≤ 1008) fun h => by have := h.1.2.2.2.2; omega) fun _ hb => ?_
  refine R.Good.bind (R.Good.require fun h => by have := h.1.2.2.2.1; unfold bandSize at this; omega) fun _ h1 => ?_
  have hbs : bandSize file < 2 ^ 32 := by unfold bandSize; omega
  have hpos : 0 < bandSize file := by unfold bandSize; omega
  rw [R.mulU_ok (by omega), R.ok_bind, R.mulU_ok (by omega), R.ok_bind]
  have hdiv : BlockTree.divCeil (fieldBe file 16 4) (fieldBe file 8 4) = bands file := rfl
  have hsize : bands file * bandSize file ≤ 1008 * 2 ^ 32 := Nat.mul_le_mul hb (by omega)
  rw [hdiv, show fieldBe file 8 4 * 512 = bandSize file from rfl, R.mulU_ok (by omega), R.ok_bind]
  have hheader : HeaderOk file := ⟨by have := hlen.2 (by omega); omega, hsig, hpos, hbs, by omega⟩
  have htree : TreeOk file 0 (BlockTree.new (bands file * bandSize file) (fieldBe file 8 4) 512) := by
    refine ⟨BlockTree.new_holds _ _ _ (by omega), BlockTree.new_blockOk (by omega) (by omega) (by omega), ?_, rfl⟩
    unfold bandSize BlockTree.new
    rw [Nat.mul_comm]
  have hloop := bandsLoop_good (file := file) hheader.1 hpos hbs (bands file) 0 (by omega) _ (fun i hi => by omega) htree
  rw [Nat.zero_add] at hloop
  refine R.Good.bind (hloop.mono (fun h => h.2) (fun _ h => h)) ?_
  rintro t ⟨ht, htr⟩
  exact R.Good.ok ⟨⟨hheader, ht⟩, rfl, rfl, htr⟩

theorem place_some {file : List Byte} (ht : TableOk file) {b i : Nat} :
    place file b = some i ↔ i < bands file ∧ number file i = b + 1 := by
  unfold place
  rw [List.find?_range_eq_some]
  simp only [decide_eq_true_eq, List.mem_range, Bool.not_eq_true', decide_eq_false_iff_not]
  constructor
  · rintro ⟨h1, h2, -⟩; exact ⟨h2, h1⟩
  · rintro ⟨h1, h2⟩
    refine ⟨h2, h1, fun j hj e => ?_⟩
    have := (ht i h1).2 j hj (by omega)
    omega

theorem place_none {file : List Byte} {b : Nat} : place file b = none ↔ ∀ i, i < bands file → number file i ≠ b + 1 := by
  unfold place
  simp [List.find?_eq_none]

theorem contents_length (file : List Byte) : (contents file).length = sectors file * 512 := by simp [contents]

theorem contents_get {file : List Byte} {x : Nat} (h : x < sectors file * 512) : (contents file)[x]? = some (byteAt file x) := by
  unfold contents
  rw [List.getElem?_map, List.getElem?_range h]
  rfl

theorem media_le {file : List Byte} (h : 0 < bandSize file) : sectors file * 512 ≤ bands file * bandSize file := by
  unfold bands
  unfold bandSize at h ⊢
  rw [← Nat.mul_assoc]
  apply Nat.mul_le_mul_right
  have h1 := Nat.div_add_mod (sectors file + fieldBe file 8 4 - 1) (fieldBe file 8 4)
  have h2 := Nat.mod_lt (sectors file + fieldBe file 8 4 - 1) (show fieldBe file 8 4 > 0 by omega)
  rw [Nat.mul_comm] at h1
  omega

/-- The tree finds the place of a band. -/
theorem get_place {file : List Byte} {image : Image} (hi : ImageOk file image) (ht : TableOk file) (hpos : 0 < bandSize file) {x : Nat}
    (hx : x < sectors file * 512) :
    BlockTree.get image.tree x = .ok ((place file (x / bandSize file)).map fun i => 4096 + i * bandSize file) := by
  obtain ⟨a, h1, h2, h3⟩ := get_number hi.tree.holds hpos (x := x) (by rw [hi.tree.data]; have := media_le hpos; omega)
  rw [h1]
  cases hp : place file (x / bandSize file) with
  | some i =>
    obtain ⟨p1, p2⟩ := (place_some ht).1 hp
    rw [(h2 (4096 + i * bandSize file)).2 (mem_stored.2 ⟨i, p1, p2, rfl⟩)]
    rfl
  | none =>
    rw [h3.2]
    · rfl
    · rw [mem_stored_fst]
      rintro ⟨i, p1, p2⟩
      exact place_none.1 hp i p1 p2

/-- What the next iteration relies on: the relative offset and the remaining size are those of the position. -/
def At (file : List Byte) (s : Nat × Nat) (pos : Nat) : Prop :=
  s = (pos % bandSize file, bandSize file - pos % bandSize file)

theorem split_pos {bs pos n i : Nat} (hb : 0 < bs) (hi : i < min n (bs - pos % bs)) :
    (pos + i) / bs = pos / bs ∧ (pos + i) % bs = pos % bs + i := by
  have h1 := Nat.div_add_mod pos bs
  have h2 : pos + i = (pos % bs + i) + bs * (pos / bs) := by omega
  rw [h2, Nat.add_mul_div_left _ _ hb, Nat.add_mul_mod_self_left, Nat.div_eq_of_lt (by omega), Nat.mod_eq_of_lt (by omega)]
  omega

/-- One iteration. -/
theorem piece_spec {file : List Byte} {image : Image} (hi : ImageOk file image) (ht : TableOk file) (hh : HeaderOk file)
    (hin : Inside file) (hU : file.length < 2 ^ 63) {s : Nat × Nat} {pos n : Nat} (ha : At file s pos) (hn : 0 < n)
    (hle : pos + n ≤ sectors file * 512) :
    ∃ out, piece file image s pos n = .ok (out, (0, bandSize file)) ∧
      out.length = min n (bandSize file - pos % bandSize file) ∧ ∀ i, i < out.length → out[i]? = (contents file)[pos + i]? := by
  have hpos := hh.2.2.1
  have hm := Nat.mod_lt pos hpos
  unfold At at ha
  subst ha
  unfold piece
  rw [get_place hi ht hpos (by omega), R.ok_bind, hi.block]
  simp only
  cases hp : place file (pos / bandSize file) with
  | none =>
    refine ⟨List.replicate (min n (bandSize file - pos % bandSize file)) 0#8, rfl, by simp, fun i hi => ?_⟩
    rw [List.length_replicate] at hi
    obtain ⟨e1, e2⟩ := split_pos hpos hi
    rw [contents_get (by omega), List.getElem?_replicate, if_pos hi, byteAt, e1, hp]
  | some i =>
    have hb : ∀ j, j < min n (bandSize file - pos % bandSize file) → 4096 + i * bandSize file + (pos % bandSize file + j) < file.length := by
      intro j hj
      obtain ⟨e1, e2⟩ := split_pos hpos hj
      have := hin (pos + j) i (by omega) (by rw [e1]; exact hp)
      rwa [e2] at this
    have h0 := hb 0 (by omega)
    simp only [Option.map_some, pieceBytes]
    rw [R.addU_ok (by omega), R.ok_bind]
    have hlast := hb (min n (bandSize file - pos % bandSize file) - 1) (by omega)
    have hlen : (Blocks.readAt file (4096 + i * bandSize file + pos % bandSize file) (min n (bandSize file - pos % bandSize file))).length =
        min n (bandSize file - pos % bandSize file) := by
      simp only [Blocks.readAt, List.length_take, List.length_drop]; omega
    refine ⟨_, rfl, hlen, fun j hj => ?_⟩
    rw [hlen] at hj
    obtain ⟨e1, e2⟩ := split_pos hpos hj
    rw [contents_get (by omega), byteAt, e1, hp]
    simp only
    unfold Blocks.readAt
    have := hb j hj
    rw [List.getElem?_take_of_lt hj, List.getElem?_drop, e2, List.getD_eq_getElem?_getD,
      show 4096 + i * bandSize file + pos % bandSize file + j = 4096 + i * bandSize file + (pos % bandSize file + j) by omega,
      List.getElem?_eq_getElem this]
    rfl

theorem start_at {file : List Byte} {image : Image} (hi : ImageOk file image) (pos : Nat) : At file (start image () pos) pos := by
  unfold At start
  have h1 := Nat.div_add_mod pos (bandSize file)
  rw [Nat.mul_comm] at h1
  rw [hi.block]
  simp only
  rw [show pos - pos / bandSize file * bandSize file = pos % bandSize file by omega]

theorem stream_trace {file : List Byte} {image : Image} (hi : ImageOk file image) (ht : TableOk file) (hh : HeaderOk file)
    (hin : Inside file) (hU : file.length < 2 ^ 63) (ops : List StreamOp) (hf : sectors file * 512 + seekBudget ops < 2 ^ 63) :
    ∃ tr, Stream.run (stream file image) ⟨(), 0⟩ ops = .ok tr ∧ tr.map Prod.fst = ops ∧
      Trace true (contents file) (sectors file * 512) 0 tr := by
  have hpos := hh.2.2.1
  have hp : Blocks.PieceOkAt (piece file image) (fun _ => True) (At file) (contents file) := by
    intro s pos n out s' _ ha hn hle h
    rw [contents_length] at hle
    obtain ⟨out', e, hlen, hb⟩ := piece_spec hi ht hh hin hU ha hn hle
    rw [e, R.ok.injEq, Prod.mk.injEq] at h
    obtain ⟨rfl, rfl⟩ := h
    have hm := Nat.mod_lt pos hpos
    refine ⟨trivial, fun hlt => ?_, ?_, ?_⟩
    · have hd : bandSize file ∣ pos + out'.length := by
        have h1 := Nat.div_add_mod pos (bandSize file)
        refine ⟨pos / bandSize file + 1, ?_⟩
        rw [Nat.mul_add]; omega
      unfold At
      rw [Nat.mod_eq_zero_of_dvd hd]; rfl
    · intro e
      rw [e, List.length_nil] at hlen
      omega
    · exact Blocks.prefix_of_bytes (by omega) (by rw [contents_length]; omega) hb
  have htot : Blocks.PieceTotalAt (piece file image) (fun _ => True) (At file) (contents file) := by
    intro s pos n _ ha hn hle
    rw [contents_length] at hle
    obtain ⟨out, e, -⟩ := piece_spec hi ht hh hin hU ha hn hle
    exact ⟨_, _, e⟩
  have := Blocks.blocks_correct_at hp htot (I := fun _ : Unit => True) (start := start image) (finish := fun _ => ())
    (fun i pos _ _ => ⟨trivial, start_at hi pos⟩) (fun _ _ => trivial) ops (by rw [contents_length]; exact hf) () trivial
  rw [contents_length] at this
  unfold stream
  rw [hi.media]
  exact this

end Keramics.SparseImage
