import Verif.Lemmas.Stream
import Verif.Model.Blocks

/-! # Lemmas: the read loop of block based streams -/

namespace Keramics.Blocks
open Keramics Keramics.Spec

section
variable {σ : Type} (piece : σ → Nat → Nat → R (List Byte × σ)) (Inv : σ → Prop) (C : List Byte)

/-- What one iteration has to do, if it succeeds: place at least one byte, and the right ones. -/
def PieceOk : Prop := ∀ s pos n out s', Inv s → 0 < n → pos + n ≤ C.length → piece s pos n = .ok (out, s') →
  Inv s' ∧ out ≠ [] ∧ out <+: (C.drop pos).take n

/-- One iteration always succeeds. -/
def PieceTotal : Prop := ∀ s pos n, Inv s → 0 < n → pos + n ≤ C.length → ∃ out s', piece s pos n = .ok (out, s')

variable {piece Inv C}

/-- Bytewise form of "these are the right bytes". -/
theorem prefix_of_bytes {C out : List Byte} {pos n : Nat} (h1 : out.length ≤ n) (_h2 : pos + out.length ≤ C.length)
    (h : ∀ i, i < out.length → out[i]? = C[pos + i]?) : out <+: (C.drop pos).take n := by
  rw [List.prefix_iff_eq_take]
  apply List.ext_getElem?
  intro i
  rw [List.take_take, Nat.min_eq_left h1]
  by_cases hi : i < out.length
  · rw [List.getElem?_take_of_lt hi, List.getElem?_drop, h i hi]
  · rw [List.getElem?_eq_none (by omega), List.getElem?_eq_none]
    rw [List.length_take]; omega

theorem loop_ok (hp : PieceOk piece Inv C) (fuel : Nat) {s s' : σ} {pos n : Nat} {out : List Byte} (hi : Inv s)
    (hn : pos + n ≤ C.length) (h : loop piece C.length fuel s pos n = .ok (out, s')) :
    Inv s' ∧ out = (C.drop pos).take n := by
  induction fuel generalizing s s' pos n out with
  | zero =>
    unfold loop at h
    split at h
    · cases h
    · have : n = 0 := by omega
      cases h
      subst this; exact ⟨hi, by simp⟩
  | succ fuel ih =>
    unfold loop at h
    split at h
    · rename_i hc
      simp only [R.bind_eq_ok, Prod.exists] at h
      obtain ⟨o, s1, h1, h⟩ := h
      obtain ⟨hi1, hne, hpre⟩ := hp _ _ _ _ _ hi hc.1 hn h1
      have hpos : 0 < o.length := List.length_pos_iff.mpr hne
      rw [if_neg (by omega)] at h
      simp only [R.bind_eq_ok, Prod.exists] at h
      obtain ⟨next, h2, rest, s2, h3, h4⟩ := h
      have hle := hpre.length_le
      simp only [List.length_take, List.length_drop] at hle
      have hnext : next = pos + o.length := by
        unfold R.addU at h2; split at h2 <;> simp_all
      subst hnext
      obtain ⟨hi2, hrest⟩ := ih (pos := pos + o.length) (n := n - o.length) hi1 (by omega) h3
      have heq : o ++ rest = out ∧ s2 = s' := by simpa using h4
      obtain ⟨rfl, rfl⟩ := heq
      refine ⟨hi2, ?_⟩
      rw [hrest]
      have e1 : o = (C.drop pos).take o.length := by
        have := List.prefix_iff_eq_take.mp hpre
        rwa [List.take_take, Nat.min_eq_left (by omega)] at this
      rw [show n = o.length + (n - o.length) by omega, List.take_add, ← e1, List.drop_drop]
      congr 2; omega
    · have : n = 0 := by omega
      cases h
      subst this; exact ⟨hi, by simp⟩

theorem loop_total (hp : PieceOk piece Inv C) (ht : PieceTotal piece Inv C) (h64 : C.length < 2 ^ 64) (fuel : Nat)
    {s : σ} {pos n : Nat} (hi : Inv s) (hn : pos + n ≤ C.length) (hf : n ≤ fuel) :
    ∃ out s', loop piece C.length fuel s pos n = .ok (out, s') := by
  induction fuel generalizing s pos n with
  | zero =>
    unfold loop
    rw [if_neg (by omega)]
    exact ⟨_, _, rfl⟩
  | succ fuel ih =>
    unfold loop
    split
    · rename_i hc
      simp only
      obtain ⟨o, s1, h1⟩ := ht s pos n hi hc.1 hn
      obtain ⟨hi1, hne, hpre⟩ := hp _ _ _ _ _ hi hc.1 hn h1
      have hpos : 0 < o.length := List.length_pos_iff.mpr hne
      have hle := hpre.length_le
      simp only [List.length_take, List.length_drop] at hle
      rw [h1, R.ok_bind]
      simp only
      rw [if_neg (by omega), R.addU_ok (by omega), R.ok_bind]
      obtain ⟨rest, s2, h3⟩ := ih (s := s1) (pos := pos + o.length) (n := n - o.length) hi1 (by omega) (by omega)
      rw [h3, R.ok_bind]
      exact ⟨_, _, rfl⟩
    · exact ⟨_, _, rfl⟩

theorem reader_ok (hp : PieceOk piece Inv C) : ReaderOk (reader piece C.length) Inv C true := by
  intro s pos n out s' hi hpos hn h
  have hpos : pos < C.length := hpos
  have hn : pos + n ≤ C.length := hn
  obtain ⟨h1, h2⟩ := loop_ok hp n hi hn h
  refine ⟨h1, h2 ▸ List.prefix_refl _, fun h3 h4 e => ?_, fun _ => h2⟩
  rw [h2] at e
  have := congrArg List.length e
  simp only [List.length_take, List.length_drop, List.length_nil] at this
  omega

/-- A stream made of the loop behaves as its contents under every sequence of calls. -/
theorem blocks_correct (hp : PieceOk piece Inv C) (ht : PieceTotal piece Inv C)
    (ops : List StreamOp) (hf : C.length + seekBudget ops < 2 ^ 63) (st : σ) (hi : Inv st) :
    ∃ tr, Stream.run (reader piece C.length) ⟨st, 0⟩ ops = .ok tr ∧ tr.map Prod.fst = ops ∧
      Trace true C C.length 0 tr := by
  refine stream_correct (reader_ok hp) ?_ (Nat.le_refl _) ops hf st hi
  intro s pos n hi hpos hn
  exact loop_total hp ht (by omega) n hi hn (Nat.le_refl _)

/-- Every successful run is a trace of the contents, also if some reads fail. -/
theorem blocks_sound (hp : PieceOk piece Inv C) (ops : List StreamOp) (hty : ∀ op ∈ ops, typed op)
    (hC : C.length < 2 ^ 63) (st : σ) (hi : Inv st) (tr) (h : Stream.run (reader piece C.length) ⟨st, 0⟩ ops = .ok tr) :
    Trace true C C.length 0 tr :=
  run_trace (reader_ok hp) (Nat.le_refl _) hC ops hty ⟨st, 0⟩ 0 hi PosRel.zero tr h

end
/-! ## Loops whose iterations hand something on -/

section
variable {ι σ : Type} (piece : σ → Nat → Nat → R (List Byte × σ)) (K : σ → Prop) (At : σ → Nat → Prop) (C : List Byte)

/-- What one iteration has to do, if it succeeds: place at least one byte, and the right ones. `At` is what the iteration
finds out about its position; it has to leave it to the next iteration, if there is one. -/
def PieceOkAt : Prop := ∀ s pos n out s', K s → At s pos → 0 < n → pos + n ≤ C.length → piece s pos n = .ok (out, s') →
  K s' ∧ (out.length < n → At s' (pos + out.length)) ∧ out ≠ [] ∧ out <+: (C.drop pos).take n

/-- One iteration always succeeds. -/
def PieceTotalAt : Prop := ∀ s pos n, K s → At s pos → 0 < n → pos + n ≤ C.length → ∃ out s', piece s pos n = .ok (out, s')

variable {piece K At C}

theorem loop_ok_at (hp : PieceOkAt piece K At C) (fuel : Nat) {s s' : σ} {pos n : Nat} {out : List Byte} (hi : K s) (ha : 0 < n → At s pos)
    (hn : pos + n ≤ C.length) (h : loop piece C.length fuel s pos n = .ok (out, s')) :
    K s' ∧ out = (C.drop pos).take n := by
  induction fuel generalizing s s' pos n out with
  | zero =>
    unfold loop at h
    split at h
    · cases h
    · have : n = 0 := by omega
      cases h
      subst this; exact ⟨hi, by simp⟩
  | succ fuel ih =>
    unfold loop at h
    split at h
    · rename_i hc
      simp only [R.bind_eq_ok, Prod.exists] at h
      obtain ⟨o, s1, h1, h⟩ := h
      obtain ⟨hi1, ha1, hne, hpre⟩ := hp _ _ _ _ _ hi (ha hc.1) hc.1 hn h1
      have hpos : 0 < o.length := List.length_pos_iff.mpr hne
      rw [if_neg (by omega)] at h
      simp only [R.bind_eq_ok, Prod.exists] at h
      obtain ⟨next, h2, rest, s2, h3, h4⟩ := h
      have hle := hpre.length_le
      simp only [List.length_take, List.length_drop] at hle
      have hnext : next = pos + o.length := by
        unfold R.addU at h2; split at h2 <;> simp_all
      subst hnext
      obtain ⟨hi2, hrest⟩ := ih (pos := pos + o.length) (n := n - o.length) hi1 (fun _ => ha1 (by omega)) (by omega) h3
      have heq : o ++ rest = out ∧ s2 = s' := by simpa using h4
      obtain ⟨rfl, rfl⟩ := heq
      refine ⟨hi2, ?_⟩
      rw [hrest]
      have e1 : o = (C.drop pos).take o.length := by
        have := List.prefix_iff_eq_take.mp hpre
        rwa [List.take_take, Nat.min_eq_left (by omega)] at this
      rw [show n = o.length + (n - o.length) by omega, List.take_add, ← e1, List.drop_drop]
      congr 2; omega
    · have : n = 0 := by omega
      cases h
      subst this; exact ⟨hi, by simp⟩

theorem loop_total_at (hp : PieceOkAt piece K At C) (ht : PieceTotalAt piece K At C) (h64 : C.length < 2 ^ 64) (fuel : Nat)
    {s : σ} {pos n : Nat} (hi : K s) (ha : 0 < n → At s pos) (hn : pos + n ≤ C.length) (hf : n ≤ fuel) :
    ∃ out s', loop piece C.length fuel s pos n = .ok (out, s') := by
  induction fuel generalizing s pos n with
  | zero =>
    unfold loop
    rw [if_neg (by omega)]
    exact ⟨_, _, rfl⟩
  | succ fuel ih =>
    unfold loop
    split
    · rename_i hc
      simp only
      obtain ⟨o, s1, h1⟩ := ht s pos n hi (ha hc.1) hc.1 hn
      obtain ⟨hi1, ha1, hne, hpre⟩ := hp _ _ _ _ _ hi (ha hc.1) hc.1 hn h1
      have hpos : 0 < o.length := List.length_pos_iff.mpr hne
      have hle := hpre.length_le
      simp only [List.length_take, List.length_drop] at hle
      rw [h1, R.ok_bind]
      simp only
      rw [if_neg (by omega), R.addU_ok (by omega), R.ok_bind]
      obtain ⟨rest, s2, h3⟩ := ih (s := s1) (pos := pos + o.length) (n := n - o.length) hi1 (fun _ => ha1 (by omega)) (by omega) (by omega)
      rw [h3, R.ok_bind]
      exact ⟨_, _, rfl⟩
    · exact ⟨_, _, rfl⟩

theorem reader_ok_at (hp : PieceOkAt piece K At C) {I : ι → Prop} {start : ι → Nat → σ} {finish : σ → ι}
    (hs : ∀ i pos, I i → pos < C.length → K (start i pos) ∧ At (start i pos) pos) (hf : ∀ s, K s → I (finish s)) :
    ReaderOk (readerWith piece C.length start finish) I C true := by
  intro s pos n out s' hi hpos hn h
  have hpos : pos < C.length := hpos
  have hn : pos + n ≤ C.length := hn
  obtain ⟨k, a⟩ := hs s pos hi hpos
  simp only [readerWith, R.bind_eq_ok, Prod.exists] at h
  obtain ⟨out', s1, h, h'⟩ := h
  simp only [R.pure_eq, R.ok.injEq, Prod.mk.injEq] at h'
  obtain ⟨rfl, rfl⟩ := h'
  obtain ⟨h1, h2⟩ := loop_ok_at hp n k (fun _ => a) hn h
  refine ⟨hf _ h1, h2 ▸ List.prefix_refl _, fun h3 h4 e => ?_, fun _ => h2⟩
  rw [h2] at e
  have := congrArg List.length e
  simp only [List.length_take, List.length_drop, List.length_nil] at this
  omega

/-- A stream made of the loop behaves as its contents under every sequence of calls. -/
theorem blocks_correct_at (hp : PieceOkAt piece K At C) (ht : PieceTotalAt piece K At C) {I : ι → Prop} {start : ι → Nat → σ}
    {finish : σ → ι} (hs : ∀ i pos, I i → pos < C.length → K (start i pos) ∧ At (start i pos) pos)
    (hfin : ∀ s, K s → I (finish s)) (ops : List StreamOp) (hf : C.length + seekBudget ops < 2 ^ 63) (st : ι) (hi : I st) :
    ∃ tr, Stream.run (readerWith piece C.length start finish) ⟨st, 0⟩ ops = .ok tr ∧ tr.map Prod.fst = ops ∧
      Trace true C C.length 0 tr := by
  refine stream_correct (reader_ok_at hp hs hfin) ?_ (Nat.le_refl _) ops hf st hi
  intro s pos n hi hpos hn
  obtain ⟨k, a⟩ := hs s pos hi hpos
  obtain ⟨out, s', h⟩ := loop_total_at hp ht (by omega) n k (fun _ => a) hn (Nat.le_refl _)
  refine ⟨out, finish s', ?_⟩
  simp only [readerWith]
  rw [h]; rfl

/-- Every successful run is a trace of the contents, also if some reads fail. -/
theorem blocks_sound_at (hp : PieceOkAt piece K At C) {I : ι → Prop} {start : ι → Nat → σ} {finish : σ → ι}
    (hs : ∀ i pos, I i → pos < C.length → K (start i pos) ∧ At (start i pos) pos) (hfin : ∀ s, K s → I (finish s))
    (ops : List StreamOp) (hty : ∀ op ∈ ops, typed op) (hC : C.length < 2 ^ 63) (st : ι) (hi : I st) (tr)
    (h : Stream.run (readerWith piece C.length start finish) ⟨st, 0⟩ ops = .ok tr) : Trace true C C.length 0 tr :=
  run_trace (reader_ok_at hp hs hfin) (Nat.le_refl _) hC ops hty ⟨st, 0⟩ 0 hi PosRel.zero tr h

end
end Keramics.Blocks
