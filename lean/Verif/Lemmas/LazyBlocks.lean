import Verif.Lemmas.Blocks
import Verif.Lemmas.EqualBlocks
import Verif.Model.LazyBlocks
import Verif.Spec.Layered

/-! # Lemmas: block trees that are filled while reading -/

namespace Keramics.Lazy
open Keramics.Spec Keramics.BlockTree Keramics.Spec.BlockTree

theorem layered_length (file parent : List Byte) (source : Nat → Source) (size : Nat) : (layered file parent source size).length = size := by
  simp [layered]

theorem layered_get {file parent : List Byte} {source : Nat → Source} {size x : Nat} (h : x < size) :
    (layered file parent source size)[x]? = some ((source x).byte file parent x) := by
  unfold layered
  rw [List.getElem?_map, List.getElem?_range h]
  rfl

/-- What a range says about a position. -/
def sourceOf (r : Lazy.Range) (x : Nat) : Source := match r.kind with
  | .inFile => .file (r.data + (x - r.media))
  | .inParent => .parent
  | .sparse => .zero
  | .compressed => .zero

/-- A range of the tree is right. -/
structure Right (source : Nat → Source) (total : Nat) (r : Spec.BlockTree.Range Lazy.Range) : Prop where
  media : r.value.media = r.offset
  size : r.value.size = r.size
  kind : r.value.kind ≠ .compressed
  data : r.value.kind = .inFile → r.value.data + r.size < 2 ^ 64
  src : ∀ x, r.has x → x < total → source x = sourceOf r.value x

/-- A tree whose ranges are all right. -/
def TreeRight (source : Nat → Source) (size : Nat) (t : Tree) : Prop :=
  ∃ rs, Holds t rs ∧ size ≤ t.dataSize ∧ ∀ r ∈ rs, Right source size r

section
variable {file : List Byte} {parent : Option (List Byte)} {source : Nat → Source} {size : Nat}

/-- The bytes of a range that is right. -/
theorem rangeBytes_spec (hin : LayeredInside file (parent.getD []) source size) {r : Spec.BlockTree.Range Lazy.Range}
    (hr : Right source size r) {x n : Nat} (hx : r.has x) (hn : 0 < n) (hle : x + n ≤ size) (hle2 : x + n ≤ r.offset + r.size) :
    ∃ out, rangeBytes file parent r.value x (x - r.offset) n = .ok out ∧ out.length = n ∧
      ∀ i, i < n → out[i]? = (layered file (parent.getD []) source size)[x + i]? := by
  have hx1 : r.offset ≤ x := hx.1
  have hs : ∀ i, i < n → source (x + i) = sourceOf r.value (x + i) := fun i hi =>
    hr.src (x + i) ⟨by omega, by omega⟩ (by omega)
  unfold rangeBytes
  cases hk : r.value.kind with
  | compressed => exact absurd hk hr.kind
  | sparse =>
    refine ⟨List.replicate n 0#8, rfl, by simp, fun i hi => ?_⟩
    rw [layered_get (by omega), hs i hi, List.getElem?_replicate, if_pos hi, sourceOf, hk]
    rfl
  | inParent =>
    have hp : ∀ i, i < n → x + i < (parent.getD []).length := by
      intro i hi
      have := hin (x + i) (by omega)
      rwa [hs i hi, sourceOf, hk] at this
    cases parent with
    | none => exact absurd (hp 0 hn) (by simp)
    | some bytes =>
      simp only [Option.getD_some] at hp ⊢
      have h1 := hp (n - 1) (by omega)
      refine ⟨_, rfl, ?_, fun i hi => ?_⟩
      · simp only [Blocks.readAt, List.length_take, List.length_drop]; omega
      · rw [layered_get (by omega), hs i hi, sourceOf, hk]
        unfold Blocks.readAt
        rw [List.getElem?_take_of_lt hi, List.getElem?_drop]
        simp only [Source.byte, List.getD_eq_getElem?_getD]
        rw [List.getElem?_eq_getElem (hp i hi)]
        rfl
  | inFile =>
    have hp : ∀ i, i < n → r.value.data + (x - r.offset) + i < file.length := by
      intro i hi
      have := hin (x + i) (by omega)
      rw [hs i hi, sourceOf, hk, hr.media] at this
      simp only at this
      omega
    have h1 := hp (n - 1) (by omega)
    have h2 := hr.data hk
    rw [R.addU_ok (by omega), R.ok_bind]
    refine ⟨_, rfl, ?_, fun i hi => ?_⟩
    · simp only [Blocks.readAt, List.length_take, List.length_drop]; omega
    · rw [layered_get (by omega), hs i hi, sourceOf, hk, hr.media]
      unfold Blocks.readAt
      rw [List.getElem?_take_of_lt hi, List.getElem?_drop]
      simp only [Source.byte, List.getD_eq_getElem?_getD]
      rw [show r.value.data + (x + i - r.offset) = r.value.data + (x - r.offset) + i by omega, List.getElem?_eq_getElem (hp i hi)]
      rfl

/-- What is found in a tree that is right. -/
theorem get_right {t : Tree} {rs : List (Spec.BlockTree.Range Lazy.Range)} (hh : Holds t rs) (hs : size ≤ t.dataSize) {x : Nat} (hx : x < size) :
    (∃ r ∈ rs, r.has x ∧ BlockTree.get t x = .ok (some r.value)) ∨ (BlockTree.get t x = .ok none ∧ ∀ r ∈ rs, ¬ r.has x) := by
  obtain ⟨a, h1, h2⟩ := get_holds hh (x := x) (by omega)
  cases a with
  | none => exact Or.inr ⟨h1, h2⟩
  | some v =>
    obtain ⟨r, hr, hx', rfl⟩ := h2
    exact Or.inl ⟨r, hr, hx', h1⟩

/-- A successful look-up gives a range that is right. -/
theorem lookup_sound {fill : Tree → R Tree} {t t' : Tree} {v : Lazy.Range} {x : Nat} (P : Tree → Prop)
    (hP : ∀ t, P t → TreeRight source size t) (hfill : ∀ t', fill t = .ok t' → P t') (ht : P t) (hx : x < size)
    (h : lookup fill t x = .ok (t', v)) : P t' ∧ ∃ r, Right source size r ∧ r.has x ∧ r.value = v := by
  obtain ⟨rs, hh, hs, hr⟩ := hP t ht
  unfold lookup at h
  rcases get_right hh hs hx with ⟨r, hm, hx', e⟩ | ⟨e, _⟩
  · rw [e, R.ok_bind] at h
    simp only [R.ok.injEq, Prod.mk.injEq] at h
    obtain ⟨rfl, rfl⟩ := h
    exact ⟨ht, r, hr r hm, hx', rfl⟩
  · rw [e, R.ok_bind] at h
    simp only at h
    obtain ⟨t1, h1, h⟩ := R.bind_eq_ok.1 h
    have ht1 := hfill t1 h1
    obtain ⟨rs1, hh1, hs1, hr1⟩ := hP t1 ht1
    rcases get_right hh1 hs1 hx with ⟨r, hm, hx', e⟩ | ⟨e, _⟩
    · rw [e, R.ok_bind] at h
      simp only [found, R.ok_bind, R.pure_eq, R.ok.injEq, Prod.mk.injEq] at h
      obtain ⟨rfl, rfl⟩ := h
      exact ⟨ht1, r, hr1 r hm, hx', rfl⟩
    · rw [e, R.ok_bind] at h
      obtain ⟨_, h, _⟩ := R.bind_eq_ok.1 h
      cases h

/-- One iteration after a look-up. -/
theorem piece_after {fill : Nat → Nat → Tree → R Tree} (hin : LayeredInside file (parent.getD []) source size) {s : Tree × Nat} {t : Tree}
    {r : Spec.BlockTree.Range Lazy.Range} (hr : Right source size r) {x n : Nat} (hx : r.has x) (hn : 0 < n) (hle : x + n ≤ size)
    (h : lookup (fill s.2 x) s.1 x = .ok (t, r.value)) :
    ∃ out, piece fill file parent s x n = .ok (out, (t, s.2 + 1)) ∧ out.length = min n (r.offset + r.size - x) ∧
      out ≠ [] ∧ out <+: ((layered file (parent.getD []) source size).drop x).take n := by
  have hx1 : r.offset ≤ x := hx.1
  have hx2 : x < r.offset + r.size := hx.2
  unfold piece
  rw [h, R.ok_bind]
  simp only
  rw [R.subU_ok (by rw [hr.media]; exact hx1), R.ok_bind, hr.media, hr.size, R.subU_ok (by omega), R.ok_bind]
  obtain ⟨out, e, hl, hb⟩ := rangeBytes_spec hin hr (n := min n (r.size - (x - r.offset))) hx (by omega) (by omega) (by omega)
  rw [e, R.ok_bind]
  refine ⟨out, rfl, by rw [hl]; omega, ?_, ?_⟩
  · intro e; rw [e, List.length_nil] at hl; omega
  · refine Blocks.prefix_of_bytes (by rw [hl]; omega) (by rw [hl, layered_length]; omega) ?_
    intro i hi
    exact hb i (by omega)

/-- Every successful history returns the bytes of the media: whatever the table entries that fill the tree, as long as
the ranges they insert are right. -/
theorem stream_sound {fill : Nat → Nat → Tree → R Tree} {blockSize : Nat} (P : Tree → Prop) (hP : ∀ t, P t → TreeRight source size t)
    (hfill : ∀ b x t t', x < size → P t → fill b x t = .ok t' → P t') (hin : LayeredInside file (parent.getD []) source size)
    (hsize : size < 2 ^ 63) (tree : Tree) (ht : P tree) (ops : List StreamOp) (hty : ∀ op ∈ ops, typed op) (tr)
    (h : Stream.run (stream fill file parent blockSize size) ⟨tree, 0⟩ ops = .ok tr) :
    Trace true (layered file (parent.getD []) source size) size 0 tr := by
  have hp : Blocks.PieceOkAt (piece fill file parent) (fun s => P s.1) (fun _ _ => True) (layered file (parent.getD []) source size) := by
    intro s pos n out s' hs _ hn hle h
    rw [layered_length] at hle
    have h' := h
    unfold piece at h'
    obtain ⟨⟨t, v⟩, h1, h'⟩ := R.bind_eq_ok.1 h'
    obtain ⟨hp', r, hr, hx, rfl⟩ := lookup_sound P hP (fun t' => hfill s.2 pos s.1 t' (by omega) hs) hs (by omega) h1
    obtain ⟨out', e, hl, hne, hpre⟩ := piece_after hin hr hx hn hle h1
    rw [e, R.ok.injEq, Prod.mk.injEq] at h
    obtain ⟨rfl, rfl⟩ := h
    exact ⟨hp', fun _ => trivial, hne, hpre⟩
  have hl := layered_length file (parent.getD []) source size
  unfold stream at h
  rw [← hl] at h hsize
  have := Blocks.blocks_sound_at hp (I := P) (fun i pos hi _ => ⟨hi, trivial⟩) (fun s hs => hs) ops hty hsize tree ht tr h
  rwa [hl] at this

/-- If the tree can be filled for every position of the media with whole blocks, no read fails. -/
theorem stream_total {fill : Nat → Nat → Tree → R Tree} {blockSize : Nat} (hb : 0 < blockSize) (P : Tree → Prop)
    (hP : ∀ t, P t → ∃ rs, Holds t rs ∧ size ≤ t.dataSize ∧ ∀ r ∈ rs, Right source size r ∧ r.size = blockSize ∧ blockSize ∣ r.offset)
    (hfill : ∀ x t, x < size → P t → BlockTree.get t x = .ok none → ∃ t', fill (x / blockSize) x t = .ok t' ∧ P t' ∧ BlockTree.get t' x ≠ .ok none)
    (hin : LayeredInside file (parent.getD []) source size) (tree : Tree) (ht : P tree) (ops : List StreamOp)
    (hf : size + seekBudget ops < 2 ^ 63) :
    ∃ tr, Stream.run (stream fill file parent blockSize size) ⟨tree, 0⟩ ops = .ok tr ∧ tr.map Prod.fst = ops ∧
      Trace true (layered file (parent.getD []) source size) size 0 tr := by
  have key : ∀ (s : Tree × Nat) pos n, P s.1 → s.2 = pos / blockSize → 0 < n → pos + n ≤ size →
      ∃ out t, piece fill file parent s pos n = .ok (out, (t, s.2 + 1)) ∧ P t ∧ out.length = min n (blockSize - pos % blockSize) ∧
        out ≠ [] ∧ out <+: ((layered file (parent.getD []) source size).drop pos).take n := by
    intro s pos n hs ha hn hle
    have hl : ∃ t r, lookup (fill s.2 pos) s.1 pos = .ok (t, r.value) ∧ P t ∧ Right source size r ∧ r.size = blockSize ∧ blockSize ∣ r.offset ∧ r.has pos := by
      obtain ⟨rs, hh, hsz, hr⟩ := hP s.1 hs
      unfold lookup
      rcases get_right hh hsz (x := pos) (by omega) with ⟨r, hm, hx', e⟩ | ⟨e, _⟩
      · rw [e, R.ok_bind]
        obtain ⟨h1, h2, h3⟩ := hr r hm
        exact ⟨s.1, r, rfl, hs, h1, h2, h3, hx'⟩
      · rw [e, R.ok_bind]
        simp only
        obtain ⟨t', e1, hp', hne⟩ := hfill pos s.1 (by omega) hs e
        rw [ha, e1, R.ok_bind]
        obtain ⟨rs1, hh1, hs1, hr1⟩ := hP t' hp'
        rcases get_right hh1 hs1 (x := pos) (by omega) with ⟨r, hm, hx', e⟩ | ⟨e, _⟩
        · rw [e]
          obtain ⟨h1, h2, h3⟩ := hr1 r hm
          exact ⟨t', r, rfl, hp', h1, h2, h3, hx'⟩
        · exact absurd e hne
    obtain ⟨t, r, e, hp', h1, h2, h3, hx⟩ := hl
    obtain ⟨out, e', hlen, hne, hpre⟩ := piece_after hin h1 hx hn hle e
    refine ⟨out, t, e', hp', ?_, hne, hpre⟩
    rw [hlen, h2]
    obtain ⟨c, hc⟩ := h3
    have hx1 : r.offset ≤ pos := hx.1
    have hx2 : pos < r.offset + r.size := hx.2
    have : pos % blockSize = pos - r.offset := by
      rw [show pos = (pos - r.offset) + blockSize * c by omega, Nat.add_mul_mod_self_left, Nat.mod_eq_of_lt (by omega)]
      omega
    omega
  have hl := layered_length file (parent.getD []) source size
  have hp : Blocks.PieceOkAt (piece fill file parent) (fun s => P s.1) (fun s pos => s.2 = pos / blockSize) (layered file (parent.getD []) source size) := by
    intro s pos n out s' hs ha hn hle h
    rw [hl] at hle
    obtain ⟨out', t, e, hp', hlen, hne, hpre⟩ := key s pos n hs ha hn hle
    rw [e, R.ok.injEq, Prod.mk.injEq] at h
    obtain ⟨rfl, rfl⟩ := h
    refine ⟨hp', fun hlt => ?_, hne, hpre⟩
    simp only
    have h1 := Nat.div_add_mod pos blockSize
    have h2 := Nat.mod_lt pos hb
    rw [ha, hlen, show pos + min n (blockSize - pos % blockSize) = blockSize * (pos / blockSize + 1) by rw [Nat.mul_add]; omega,
      Nat.mul_div_cancel_left _ hb]
  have htot : Blocks.PieceTotalAt (piece fill file parent) (fun s => P s.1) (fun s pos => s.2 = pos / blockSize) (layered file (parent.getD []) source size) := by
    intro s pos n hs ha hn hle
    rw [hl] at hle
    obtain ⟨out', t, e, -⟩ := key s pos n hs ha hn hle
    exact ⟨_, _, e⟩
  have := Blocks.blocks_correct_at hp htot (I := P) (start := fun tree current => (tree, current / blockSize)) (finish := Prod.fst)
    (fun i pos hi _ => ⟨hi, rfl⟩) (fun s hs => hs) ops (by rw [hl]; exact hf) tree ht
  rw [hl] at this
  exact this

end
end Keramics.Lazy
