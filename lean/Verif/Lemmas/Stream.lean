import Verif.Model.Stream

namespace Keramics
open Spec

/-- Relation between `current_offset` and the abstract position. -/
def PosRel (cur : Nat) (p : Int) : Prop := cur = asU64 p ∧ -2 ^ 63 ≤ p ∧ p < 2 ^ 63

theorem PosRel.asI64 {cur : Nat} {p : Int} (h : PosRel cur p) : asI64 cur = p := by
  obtain ⟨h, h1, h2⟩ := h
  subst h; unfold Keramics.asI64 asU64
  split <;> omega

theorem PosRel.nonneg {cur : Nat} {p : Int} (h : PosRel cur p) (hp : 0 ≤ p) : (cur : Int) = p := by
  obtain ⟨h, h1, h2⟩ := h
  subst h; unfold asU64; omega

theorem PosRel.neg {cur : Nat} {p : Int} (h : PosRel cur p) (hp : p < 0) : 2 ^ 63 ≤ cur := by
  obtain ⟨h, h1, h2⟩ := h
  subst h; unfold asU64; omega

theorem PosRel.lt {cur : Nat} {p : Int} (h : PosRel cur p) {S : Nat} (hS : S < 2 ^ 63) :
    cur < S ↔ 0 ≤ p ∧ p < S := by
  by_cases hp : 0 ≤ p
  · have := h.nonneg hp; omega
  · have := h.neg (by omega); omega

theorem PosRel.zero : PosRel 0 0 := ⟨by decide, by decide, by decide⟩

theorem PosRel.ofNat {n : Nat} (h : n < 2 ^ 63) : PosRel n n := by
  refine ⟨?_, ?_, ?_⟩
  · unfold asU64; omega
  · omega
  · omega

theorem addI64_eq_ok {a b c : Int} :
    R.addI64 a b = .ok c ↔ c = a + b ∧ -2 ^ 63 ≤ c ∧ c < 2 ^ 63 := by
  unfold R.addI64
  split
  · constructor
    · intro h; cases h; omega
    · rintro ⟨rfl, _⟩; rfl
  · constructor
    · intro h; cases h
    · rintro ⟨rfl, _⟩; omega

section
variable {σ : Type} (r : Reader σ) (Inv : σ → Prop) (C : List Byte) (full : Bool)

/-- What a format has to show of its `readData`: a successful read inside the declared size gives
legal bytes and keeps the invariant. -/
def ReaderOk : Prop := ∀ s pos n out s', Inv s → pos < r.size → pos + n ≤ r.size →
  r.readData s pos n = .ok (out, s') →
  Inv s' ∧ out <+: (C.drop pos).take n ∧ (0 < n → pos < C.length → out ≠ [])
    ∧ (full = true → out = (C.drop pos).take n)

variable {r Inv C full}

theorem read_ok (hr : ReaderOk r Inv C full) (hC : C.length ≤ r.size)
    {s s' : Stream σ} {p : Int} {n : Nat} {out : List Byte} (hS : r.size < 2 ^ 63)
    (hi : Inv s.inner) (hp : PosRel s.current p) (h : s.read r n = .ok (out, s')) :
    Inv s'.inner ∧ readOk full C r.size p n out ∧ PosRel s'.current (p + out.length) := by
  unfold Stream.read at h
  by_cases hc : s.current ≥ r.size
  · simp only [hc, if_true, R.pure_eq, R.ok.injEq, Prod.mk.injEq] at h
    obtain ⟨rfl, rfl⟩ := h
    refine ⟨hi, ?_, by simpa using hp⟩
    have := hp.lt hS
    unfold readOk
    rw [if_neg (by omega)]
  · simp only [hc, if_false, R.bind_eq_ok, Prod.exists] at h
    obtain ⟨out', inner', hread, cur', hadd, he⟩ := h
    have hpr := (hp.lt hS).mp (by omega)
    have hcur := hp.nonneg hpr.1
    have hpn : p.toNat = s.current := by omega
    obtain ⟨hi', hpre, hne, hfull⟩ := hr s.inner s.current _ out' inner' hi (by omega) (by omega) hread
    have heq : out' = out ∧ (⟨inner', cur'⟩ : Stream σ) = s' := by simpa using he
    obtain ⟨rfl, rfl⟩ := heq
    have hadd : s.current + out'.length = cur' := by
      unfold R.addU at hadd; split at hadd <;> simp_all
    have htake : (C.drop s.current).take (min n (r.size - s.current))
        = (C.drop s.current).take n := by
      rcases Nat.le_total n (r.size - s.current) with h | h
      · rw [Nat.min_eq_left h]
      · rw [Nat.min_eq_right h, List.take_of_length_le, List.take_of_length_le] <;> simp <;> omega
    rw [htake] at hpre hfull
    refine ⟨hi', ?_, ?_⟩
    · unfold readOk
      rw [if_pos hpr, hpn]
      exact ⟨hpre, fun hn hl => hne (by omega) hl, hfull⟩
    · have hlen := hpre.length_le
      simp only [List.length_take, List.length_drop] at hlen
      have : (p + out'.length : Int) = (cur' : Nat) := by omega
      rw [this]
      exact PosRel.ofNat (by show cur' < _; omega)

theorem seek_ok {s s' : Stream σ} {p : Int} {pos : SeekFrom} {q : Nat} (hS : r.size < 2 ^ 63)
    (hp : PosRel s.current p) (ht : typed (.seek pos)) (h : s.seek r pos = .ok (q, s')) :
    s'.inner = s.inner ∧ (0 ≤ target r.size p pos → (q : Int) = target r.size p pos)
      ∧ PosRel s'.current (target r.size p pos) := by
  unfold Stream.seek at h
  simp only [R.bind_eq_ok] at h
  obtain ⟨c, hc, he⟩ := h
  have heq : c = q ∧ ({ s with current := c } : Stream σ) = s' := by simpa using he
  obtain ⟨rfl, rfl⟩ := heq
  suffices hpr : PosRel c (target r.size p pos) from ⟨rfl, fun h => hpr.nonneg h, hpr⟩
  cases pos <;> simp only [seekOffset] at hc
  case start o =>
    have : o = c := by simpa using hc
    subst this; exact PosRel.ofNat ht
  case current d =>
    simp only [R.bind_eq_ok, hp.asI64, addI64_eq_ok] at hc
    obtain ⟨a, ⟨rfl, h1, h2⟩, hc⟩ := hc
    have : asU64 (p + d) = c := by simpa using hc
    exact ⟨this.symm, h1, h2⟩
  case fromEnd d =>
    have hs : asI64 r.size = r.size := by unfold asI64; rw [if_pos hS]
    simp only [R.bind_eq_ok, hs, addI64_eq_ok] at hc
    obtain ⟨a, ⟨rfl, h1, h2⟩, hc⟩ := hc
    have : asU64 (r.size + d) = c := by simpa using hc
    exact ⟨this.symm, h1, h2⟩

/-- Every successful run of a stream is a trace of its contents. -/
theorem run_trace (hr : ReaderOk r Inv C full) (hC : C.length ≤ r.size) (hS : r.size < 2 ^ 63)
    (ops : List StreamOp) (ht : ∀ op ∈ ops, typed op) (s : Stream σ) (p : Int) (hi : Inv s.inner)
    (hp : PosRel s.current p) (tr : List (StreamOp × StreamOut)) (h : s.run r ops = .ok tr) :
    Trace full C r.size p tr := by
  induction ops generalizing s p tr with
  | nil => unfold Stream.run at h; cases h; exact .nil
  | cons op ops ih =>
    unfold Stream.run at h
    simp only [R.bind_eq_ok, Prod.exists] at h
    obtain ⟨out, s', hstep, rest, hrest, he⟩ := h
    cases he
    have ht' : ∀ op ∈ ops, typed op := fun o ho => ht o (List.mem_cons_of_mem _ ho)
    cases op with
    | read n =>
      simp only [Stream.step, R.bind_eq_ok, Prod.exists] at hstep
      obtain ⟨o, s'', hread, he⟩ := hstep
      have heq : StreamOut.bytes o = out ∧ s'' = s' := by simpa using he
      obtain ⟨rfl, rfl⟩ := heq
      obtain ⟨hi', hok, hp'⟩ := read_ok hr hC hS hi hp hread
      exact .read hok (ih ht' _ _ hi' hp' _ hrest)
    | seek pos =>
      simp only [Stream.step, R.bind_eq_ok, Prod.exists] at hstep
      obtain ⟨o, s'', hseek, he⟩ := hstep
      have heq : StreamOut.position o = out ∧ s'' = s' := by simpa using he
      obtain ⟨rfl, rfl⟩ := heq
      obtain ⟨hi', hok, hp'⟩ := seek_ok hS hp (ht _ List.mem_cons_self) hseek
      exact .seek hok (ih ht' _ _ (hi' ▸ hi) hp' _ hrest)

/-- Reads inside the declared size always succeed. -/
def ReaderTotal (r : Reader σ) (Inv : σ → Prop) : Prop := ∀ s pos n, Inv s → pos < r.size →
  pos + n ≤ r.size → ∃ out s', r.readData s pos n = .ok (out, s')

theorem typed_of_budget {B : Nat} {ops : List StreamOp} (h : B + seekBudget ops < 2 ^ 63) :
    ∀ op ∈ ops, typed op := by
  induction ops generalizing B with
  | nil => simp
  | cons op ops ih =>
    intro o ho
    rcases List.mem_cons.mp ho with rfl | ho'
    · cases o with
      | read n => trivial
      | seek pos => cases pos <;> simp only [seekBudget, typed] at h ⊢ <;> omega
    · cases op with
      | read n => exact ih h o ho'
      | seek pos =>
        cases pos <;> simp only [seekBudget] at h <;>
          exact ih (B := B) (by omega) o ho'

/-- A run whose seeks cannot leave the `i64` range never fails. -/
theorem run_total (hr : ReaderOk r Inv C full) (htot : ReaderTotal r Inv) (hC : C.length ≤ r.size)
    (B : Nat) (hB : r.size ≤ B) (ops : List StreamOp) (hf : B + seekBudget ops < 2 ^ 63)
    (s : Stream σ) (p : Int) (hpB : p.natAbs ≤ B) (hi : Inv s.inner)
    (hp : PosRel s.current p) : ∃ tr, s.run r ops = .ok tr := by
  have ht := typed_of_budget hf
  have hS : r.size < 2 ^ 63 := by omega
  induction ops generalizing s p B with
  | nil => exact ⟨[], rfl⟩
  | cons op ops ih =>
    have ht' : ∀ op ∈ ops, typed op := fun o ho => ht o (List.mem_cons_of_mem _ ho)
    have hstep : ∃ out s', s.step r op = .ok (out, s') := by
      cases op with
      | read n =>
        suffices ∃ o s', s.read r n = .ok (o, s') by
          obtain ⟨o, s', h⟩ := this
          exact ⟨.bytes o, s', by simp [Stream.step, h]⟩
        unfold Stream.read
        by_cases hc : s.current ≥ r.size
        · simp [hc]
        · simp only [hc, if_false]
          have h2 : s.current + (min n (r.size - s.current))
              ≤ r.size := by omega
          obtain ⟨o, s', h⟩ := htot s.inner s.current _ hi (by omega) h2
          have hl := (hr _ _ _ _ _ hi (by omega) h2 h).2.1.length_le
          simp only [List.length_take, List.length_drop] at hl
          rw [h, R.ok_bind]
          simp only
          rw [R.addU_ok (by omega)]
          simp
      | seek pos =>
        suffices ∃ o s', s.seek r pos = .ok (o, s') by
          obtain ⟨o, s', h⟩ := this
          exact ⟨.position o, s', by simp [Stream.step, h]⟩
        unfold Stream.seek
        cases pos with
        | start o => simp [seekOffset]
        | current d =>
          simp only [seekBudget] at hf
          have : R.addI64 (asI64 s.current) d = .ok (p + d) := by
            rw [addI64_eq_ok, hp.asI64]; omega
          simp [seekOffset, this]
        | fromEnd d =>
          simp only [seekBudget] at hf
          have hs : asI64 r.size = r.size := by unfold asI64; rw [if_pos hS]
          have : R.addI64 (asI64 r.size) d = .ok (r.size + d) := by
            rw [addI64_eq_ok, hs]; omega
          simp [seekOffset, this]
    obtain ⟨out, s', hs⟩ := hstep
    have hnext : Inv s'.inner ∧ ∃ p' B', PosRel s'.current p' ∧ r.size ≤ B' ∧ p'.natAbs ≤ B'
        ∧ B' + seekBudget ops < 2 ^ 63 := by
      cases op with
      | read n =>
        simp only [Stream.step, R.bind_eq_ok, Prod.exists] at hs
        obtain ⟨o, s'', hread, he⟩ := hs
        have heq : StreamOut.bytes o = out ∧ s'' = s' := by simpa using he
        obtain ⟨rfl, rfl⟩ := heq
        obtain ⟨hi', hrd, hp'⟩ := read_ok hr hC hS hi hp hread
        refine ⟨hi', _, B, hp', hB, ?_, hf⟩
        unfold readOk at hrd
        split at hrd
        · have := hrd.1.length_le
          simp only [List.length_take, List.length_drop] at this
          omega
        · subst hrd; simpa using hpB
      | seek pos =>
        simp only [Stream.step, R.bind_eq_ok, Prod.exists] at hs
        obtain ⟨o, s'', hseek, he⟩ := hs
        have heq : StreamOut.position o = out ∧ s'' = s' := by simpa using he
        obtain ⟨rfl, rfl⟩ := heq
        obtain ⟨hi', _, hp'⟩ := seek_ok hS hp (ht _ List.mem_cons_self) hseek
        cases pos with
        | start o =>
          simp only [seekBudget] at hf
          exact ⟨hi' ▸ hi, _, B + o, hp', by omega, by simp only [target]; omega, by omega⟩
        | current d =>
          simp only [seekBudget] at hf
          exact ⟨hi' ▸ hi, _, B + d.natAbs, hp', by omega, by simp only [target]; omega, by omega⟩
        | fromEnd d =>
          simp only [seekBudget] at hf
          exact ⟨hi' ▸ hi, _, B + d.natAbs, hp', by omega, by simp only [target]; omega, by omega⟩
    obtain ⟨hi', p', B', hp', hB', hpB', hf'⟩ := hnext
    obtain ⟨tr, htr⟩ := ih B' hB' hf' s' p' hpB' hi' hp' ht'
    exact ⟨(op, out) :: tr, by simp [Stream.run, hs, htr]⟩

/-- A run records exactly the requested operations. -/
theorem run_ops (s : Stream σ) (ops : List StreamOp) (tr) (h : s.run r ops = .ok tr) :
    tr.map Prod.fst = ops := by
  induction ops generalizing s tr with
  | nil => unfold Stream.run at h; cases h; rfl
  | cons op ops ih =>
    unfold Stream.run at h
    simp only [R.bind_eq_ok, Prod.exists] at h
    obtain ⟨out, s', _, rest, hrest, he⟩ := h
    cases he
    simp [ih _ _ hrest]

/-- Combination: a new stream at position 0 behaves as its contents. -/
theorem stream_correct (hr : ReaderOk r Inv C full) (htot : ReaderTotal r Inv)
    (hC : C.length ≤ r.size) (ops : List StreamOp) (hf : r.size + seekBudget ops < 2 ^ 63)
    (st : σ) (hi : Inv st) :
    ∃ tr, Stream.run r ⟨st, 0⟩ ops = .ok tr ∧ tr.map Prod.fst = ops
      ∧ Trace full C r.size 0 tr := by
  obtain ⟨tr, h⟩ := run_total hr htot hC r.size (Nat.le_refl _) ops hf ⟨st, 0⟩ 0 (by simp) hi
    PosRel.zero
  exact ⟨tr, h, run_ops _ _ _ h, run_trace hr hC (by omega) ops (typed_of_budget hf) _ 0 hi PosRel.zero _ h⟩

end
end Keramics
