import Verif.Lemmas.Blocks
import Verif.Spec.StreamIf

/-! # Streams some reads of which fail -/

namespace Keramics
open Spec

section
variable {σ : Type} {r : Reader σ} {Inv : σ → Prop} {C : List Byte} {P : Nat → Nat → Prop}

/-- Such reads succeed. -/
def ReaderTotalIf (r : Reader σ) (Inv : σ → Prop) (P : Nat → Nat → Prop) : Prop := ∀ s pos n, Inv s → pos < r.size →
  pos + n ≤ r.size → P pos n → ∃ out s', r.readData s pos n = .ok (out, s')

theorem run_total_if (hr : ReaderOk r Inv C true) (htot : ReaderTotalIf r Inv P) (hC : C.length = r.size)
    (B : Nat) (hB : r.size ≤ B) (ops : List StreamOp) (hf : B + seekBudget ops < 2 ^ 63)
    (s : Stream σ) (p : Int) (hpB : p.natAbs ≤ B) (hi : Inv s.inner)
    (hp : PosRel s.current p) (hP : ReadsOnly P r.size p ops) : ∃ tr, s.run r ops = .ok tr := by
  have ht := typed_of_budget hf
  have hS : r.size < 2 ^ 63 := by omega
  induction ops generalizing s p B with
  | nil => exact ⟨[], rfl⟩
  | cons op ops ih =>
    have ht' : ∀ op ∈ ops, typed op := fun o ho => ht o (List.mem_cons_of_mem _ ho)
    have hstep : ∃ out s', s.step r op = .ok (out, s') := by
      cases op with
      | read n =>
        suffices ∃ o s', s.read r n = .ok (o, s') by
          obtain ⟨o, s', h⟩ := this
          exact ⟨.bytes o, s', by simp [Stream.step, h]⟩
        unfold Stream.read
        by_cases hc : s.current ≥ r.size
        · simp [hc]
        · simp only [hc, if_false]
          have h2 : s.current + (min n (r.size - s.current))
              ≤ r.size := by omega
          have hpr := (hp.lt hS).mp (by omega)
          have hcur := hp.nonneg hpr.1
          unfold ReadsOnly at hP
          rw [if_pos hpr, show p.toNat = s.current by omega] at hP
          obtain ⟨o, s', h⟩ := htot s.inner s.current _ hi (by omega) h2 hP.1
          have hl := (hr _ _ _ _ _ hi (by omega) h2 h).2.1.length_le
          simp only [List.length_take, List.length_drop] at hl
          rw [h, R.ok_bind]
          simp only
          rw [R.addU_ok (by omega)]
          simp
      | seek pos =>
        suffices ∃ o s', s.seek r pos = .ok (o, s') by
          obtain ⟨o, s', h⟩ := this
          exact ⟨.position o, s', by simp [Stream.step, h]⟩
        unfold Stream.seek
        cases pos with
        | start o => simp [seekOffset]
        | current d =>
          simp only [seekBudget] at hf
          have : R.addI64 (asI64 s.current) d = .ok (p + d) := by
            rw [addI64_eq_ok, hp.asI64]; omega
          simp [seekOffset, this]
        | fromEnd d =>
          simp only [seekBudget] at hf
          have hs : asI64 r.size = r.size := by unfold asI64; rw [if_pos hS]
          have : R.addI64 (asI64 r.size) d = .ok (r.size + d) := by
            rw [addI64_eq_ok, hs]; omega
          simp [seekOffset, this]
    obtain ⟨out, s', hs⟩ := hstep
    have hnext : Inv s'.inner ∧ ∃ p' B', PosRel s'.current p' ∧ r.size ≤ B' ∧ p'.natAbs ≤ B'
        ∧ B' + seekBudget ops < 2 ^ 63 ∧ ReadsOnly P r.size p' ops := by
      cases op with
      | read n =>
        simp only [Stream.step, R.bind_eq_ok, Prod.exists] at hs
        obtain ⟨o, s'', hread, he⟩ := hs
        have heq : StreamOut.bytes o = out ∧ s'' = s' := by simpa using he
        obtain ⟨rfl, rfl⟩ := heq
        obtain ⟨hi', hrd, hp'⟩ := read_ok hr (Nat.le_of_eq hC) hS hi hp hread
        unfold readOk at hrd
        unfold ReadsOnly at hP
        refine ⟨hi', _, B, hp', hB, ?_, hf, ?_⟩
        · split at hrd
          · have := hrd.1.length_le
            simp only [List.length_take, List.length_drop] at this
            omega
          · subst hrd; simpa using hpB
        · split at hrd
          · next hin =>
            rw [if_pos hin] at hP
            have := hrd.2.2 rfl
            rw [this, List.length_take, List.length_drop, hC]
            exact hP.2
          · next hin =>
            rw [if_neg hin] at hP
            subst hrd; simpa using hP
      | seek pos =>
        simp only [Stream.step, R.bind_eq_ok, Prod.exists] at hs
        obtain ⟨o, s'', hseek, he⟩ := hs
        have heq : StreamOut.position o = out ∧ s'' = s' := by simpa using he
        obtain ⟨rfl, rfl⟩ := heq
        obtain ⟨hi', _, hp'⟩ := seek_ok hS hp (ht _ List.mem_cons_self) hseek
        unfold ReadsOnly at hP
        cases pos with
        | start o =>
          simp only [seekBudget] at hf
          exact ⟨hi' ▸ hi, _, B + o, hp', by omega, by simp only [target]; omega, by omega, hP⟩
        | current d =>
          simp only [seekBudget] at hf
          exact ⟨hi' ▸ hi, _, B + d.natAbs, hp', by omega, by simp only [target]; omega, by omega, hP⟩
        | fromEnd d =>
          simp only [seekBudget] at hf
          exact ⟨hi' ▸ hi, _, B + d.natAbs, hp', by omega, by simp only [target]; omega, by omega, hP⟩
    obtain ⟨hi', p', B', hp', hB', hpB', hf', hP'⟩ := hnext
    obtain ⟨tr, htr⟩ := ih B' hB' hf' s' p' hpB' hi' hp' hP' ht'
    exact ⟨(op, out) :: tr, by simp [Stream.run, hs, htr]⟩

end

namespace Blocks
variable {σ : Type} {piece : σ → Nat → Nat → R (List Byte × σ)} {Inv : σ → Prop} {C : List Byte} {P : Nat → Nat → Prop}

/-- One iteration of such a read succeeds and leaves such a read. -/
def PieceTotalIf (piece : σ → Nat → Nat → R (List Byte × σ)) (Inv : σ → Prop) (C : List Byte) (P : Nat → Nat → Prop) : Prop :=
  ∀ s pos n, Inv s → 0 < n → pos + n ≤ C.length → P pos n →
    ∃ out s', piece s pos n = .ok (out, s') ∧ (out.length < n → P (pos + out.length) (n - out.length))

theorem loop_total_if (hp : PieceOk piece Inv C) (ht : PieceTotalIf piece Inv C P) (h64 : C.length < 2 ^ 64) (fuel : Nat)
    {s : σ} {pos n : Nat} (hi : Inv s) (hn : pos + n ≤ C.length) (hf : n ≤ fuel) (hP : 0 < n → P pos n) :
    ∃ out s', loop piece C.length fuel s pos n = .ok (out, s') := by
  induction fuel generalizing s pos n with
  | zero =>
    unfold loop
    rw [if_neg (by omega)]
    exact ⟨_, _, rfl⟩
  | succ fuel ih =>
    unfold loop
    split
    · rename_i hc
      simp only
      obtain ⟨o, s1, h1, hnext⟩ := ht s pos n hi hc.1 hn (hP hc.1)
      obtain ⟨hi1, hne, hpre⟩ := hp _ _ _ _ _ hi hc.1 hn h1
      have hpos : 0 < o.length := List.length_pos_iff.mpr hne
      have hle := hpre.length_le
      simp only [List.length_take, List.length_drop] at hle
      rw [h1, R.ok_bind]
      simp only
      rw [if_neg (by omega), R.addU_ok (by omega), R.ok_bind]
      obtain ⟨rest, s2, h3⟩ := ih (s := s1) (pos := pos + o.length) (n := n - o.length) hi1 (by omega) (by omega)
        (fun h => hnext (by omega))
      rw [h3, R.ok_bind]
      exact ⟨_, _, rfl⟩
    · exact ⟨_, _, rfl⟩

/-- Calls all reads of which are such reads succeed. -/
theorem blocks_total_if (hp : PieceOk piece Inv C) (ht : PieceTotalIf piece Inv C P)
    (ops : List StreamOp) (hf : C.length + seekBudget ops < 2 ^ 63) (st : σ) (hi : Inv st) (hP : ReadsOnly P C.length 0 ops) :
    ∃ tr, Stream.run (reader piece C.length) ⟨st, 0⟩ ops = .ok tr ∧ tr.map Prod.fst = ops ∧ Trace true C C.length 0 tr := by
  obtain ⟨tr, h⟩ := run_total_if (r := reader piece C.length) (P := P) (reader_ok hp) (fun s pos n hi hpos hn hP =>
      loop_total_if hp ht (by omega) n hi hn (Nat.le_refl _) (fun _ => hP)) rfl C.length (Nat.le_refl _) ops hf ⟨st, 0⟩ 0 (by simp) hi PosRel.zero hP
  exact ⟨tr, h, run_ops _ _ _ h, run_trace (reader_ok hp) (Nat.le_refl _) (by show C.length < _; omega) ops (typed_of_budget hf) _ 0 hi PosRel.zero _ h⟩

end Blocks
end Keramics
