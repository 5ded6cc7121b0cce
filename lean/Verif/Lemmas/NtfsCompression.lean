import Verif.Lemmas.NtfsFiles
import Verif.Lemmas.StreamIf
import Verif.Lemmas.Fat
import Verif.Spec.NtfsCompression
import Verif.Props.Lznt1

/-!
# Compressed streams
-/

namespace Keramics.NtfsFs
open Keramics.Spec Keramics.Spec.Ntfs Keramics.Spec.NtfsFs
open Keramics.Ntfs (DataRun Range runLen runRange kept)

/-! ## The ranges of units -/

/-- What the ranges of the first `k` units are: `cut j` is the number of stored clusters of unit `j`. -/
structure Ranges (unit u : Nat) (cut : Nat → Nat) (k : Nat) (rs : List (Spec.BlockTree.Range UnitRange)) : Prop where
  each : ∀ r ∈ rs, ∃ j m c, r = ⟨j * unit, m * unit, ⟨j * unit, m * unit, c⟩⟩ ∧ 0 < m ∧ j + m ≤ k ∧ (c = true → m = 1 ∧ cut j < u) ∧
    (c = false → ∀ i, i < m → cut (j + i) = 0 ∨ cut (j + i) = u)
  every : ∀ j, j < k → ∃ r ∈ rs, r.offset ≤ j * unit ∧ (j + 1) * unit ≤ r.offset + r.size

structure TreeOk (unit u : Nat) (cut : Nat → Nat) (size k : Nat) (t : BlockTree.Tree UnitRange) : Prop where
  holds : ∃ rs, BlockTree.Holds t rs ∧ Ranges unit u cut k rs
  data : t.dataSize = size
  node : t.perNode = 0
  leaf : t.leafSize = unit

theorem insert_units {unit u : Nat} {cut : Nat → Nat} {size k m : Nat} {t : BlockTree.Tree UnitRange} (h : TreeOk unit u cut size k t) (hu : 0 < unit) (hm : 0 < m)
    (hs : size < 2 ^ 64) (hle : (k + m) * unit ≤ size) (c : Bool) (hc : c = true → m = 1 ∧ cut k < u)
    (hn : c = false → ∀ i, i < m → cut (k + i) = 0 ∨ cut (k + i) = u) :
    ∃ t', BlockTree.insert t (k * unit) (m * unit) ⟨k * unit, m * unit, c⟩ = .ok t' ∧ TreeOk unit u cut size (k + m) t' := by
  obtain ⟨⟨rs, h1, h2⟩, hd, hp, hl⟩ := h
  obtain ⟨t', e1, e2, e3, e4, e5⟩ := BlockTree.insert_flat h1 (off := k * unit) (size := m * unit) (v := ⟨k * unit, m * unit, c⟩) (by omega)
    (Nat.mul_pos hm hu) (by rw [hd, ← Nat.add_mul]; exact hle) (by omega) (hl ▸ Nat.dvd_mul_left _ _) (hl ▸ Nat.dvd_mul_left _ _)
    (fun r hr => by
      obtain ⟨j, m', c', rfl, -, hj, -⟩ := h2.each r hr
      refine BlockTree.apart_of_le ?_
      simp only
      rw [← Nat.add_mul]
      exact Nat.mul_le_mul_right _ hj)
  refine ⟨t', e1, ⟨_, e2, ⟨fun r hr => ?_, fun j hj => ?_⟩⟩, by omega, by omega, by omega⟩
  · rcases List.mem_append.1 hr with hr | hr
    · obtain ⟨j, m', c', g1, g2, g3, g4⟩ := h2.each r hr
      exact ⟨j, m', c', g1, g2, by omega, g4⟩
    · exact ⟨k, m, c, List.mem_singleton.1 hr, hm, Nat.le_refl _, hc, hn⟩
  · by_cases hj' : j < k
    · obtain ⟨r, hr, g⟩ := h2.every j hj'
      exact ⟨r, List.mem_append_left _ hr, g⟩
    · refine ⟨_, List.mem_append_right _ (List.mem_singleton_self _), Nat.mul_le_mul_right _ (by omega), ?_⟩
      simp only
      rw [← Nat.add_mul]
      exact Nat.mul_le_mul_right _ (by omega)

section
variable {bs u N : Nat} {cut : Nat → Nat} {st : Nat → Bool}

/-- The flag of a cluster. -/
def kindOf (stored : Bool) : Ntfs.RunType := if stored then .inFile else .sparse

/-- The state after `n` clusters. -/
structure Gathered (bs u N : Nat) (cut : Nat → Nat) (st : Nat → Bool) (k p : Nat) (g : Gathering) : Prop where
  offset : g.range.offset = k * (u * bs)
  size : g.range.size = p * bs
  low : g.range.compressed = true → cut k < p
  high : 0 < cut k → cut k < p → g.range.compressed = true
  last : 0 < k * u + p → g.last = kindOf (st (k * u + p - 1))
  first : k * u + p = 0 → g.last = .endOfList
  tree : TreeOk (u * bs) u cut (N * (u * bs)) k g.tree

theorem flush_ok (hbs : 0 < bs) (hu : 0 < u) (hN : N * (u * bs) < 2 ^ 63) {k s q : Nat} {g : Gathering} (ho : g.range.offset = k * (u * bs))
    (hs : g.range.size = s * bs) (ht : TreeOk (u * bs) u cut (N * (u * bs)) k g.tree) (hle : k * u + s ≤ N * u) (hsu : u ≤ s)
    (hq : q = if g.range.compressed then 1 else s / u)
    (hc : g.range.compressed = true → cut k < u) (hn : g.range.compressed = false → ∀ i, i < s / u → cut (k + i) = 0 ∨ cut (k + i) = u) :
    ∃ t, flush (u * bs) g = .ok ⟨⟨(k + q) * (u * bs), (s - q * u) * bs, false⟩, g.last, t⟩ ∧ TreeOk (u * bs) u cut (N * (u * bs)) (k + q) t ∧ 0 < q ∧ q * u ≤ s := by
  have hunit : 0 < u * bs := Nat.mul_pos hu hbs
  have hsq : 0 < s / u := Nat.div_pos hsu hu
  have hq0 : 0 < q := by rw [hq]; split <;> omega
  have hqs : q * u ≤ s := by
    rw [hq]; split
    · omega
    · exact Nat.div_mul_le_self _ _
  have hfs : flushSize (u * bs) g.range = q * (u * bs) := by
    unfold flushSize
    rw [hq]
    split
    · rw [Nat.one_mul]
    · rw [hs, Nat.mul_div_mul_right _ _ hbs]
  have hkq : (k + q) * (u * bs) ≤ N * (u * bs) := by
    rw [← Nat.mul_assoc, ← Nat.mul_assoc]
    refine Nat.mul_le_mul_right _ ?_
    rw [Nat.add_mul]; omega
  obtain ⟨t, e1, e2⟩ := insert_units ht hunit hq0 (by omega) hkq g.range.compressed
    (fun h => ⟨by rw [hq, if_pos h], hc h⟩) (fun h i hi => hn h i (by rw [hq, if_neg (by rw [h]; decide)] at hi; exact hi))
  refine ⟨t, ?_, e2, hq0, hqs⟩
  have hmul : q * (u * bs) = q * u * bs := (Nat.mul_assoc _ _ _).symm
  have hle2 : q * u * bs ≤ s * bs := Nat.mul_le_mul_right _ hqs
  unfold flush
  rw [hfs, hs]
  simp only [ho]
  rw [R.subU_ok (by omega), R.ok_bind, e1, R.ok_bind, R.addU_ok (by rw [← Nat.add_mul]; omega), R.ok_bind, R.pure_eq, ← Nat.add_mul]
  congr 4
  rw [Nat.sub_mul, hmul]

/-- After a data run. -/
theorem gatherRun_ok (hbs : 0 < bs) (hu : 0 < u) (hN : N * (u * bs) < 2 ^ 63) (hcut : ∀ j, j < N → ∀ i, i < u → (st (j * u + i) = true ↔ i < cut j))
    (hcu : ∀ j, cut j ≤ u) {k p : Nat} {g : Gathering} (h : Gathered bs u N cut st k p g) (hp : p < u) (r : Run) (hr : 0 < r.count)
    (hk : ∀ i, i < r.count → kindOf (st (k * u + p + i)) = (kept r).kind) (hle : k * u + p + r.count ≤ N * u) :
    ∃ g' k' p', gatherRun bs (u * bs) g (kept r) = .ok g' ∧ Gathered bs u N cut st k' p' g' ∧ p' < u ∧ k' * u + p' = k * u + p + r.count := by
  have hunit : 0 < u * bs := Nat.mul_pos hu hbs
  have hpb : p * bs < u * bs := Nat.mul_lt_mul_of_pos_right hp hbs
  have hcount : (kept r).count = r.count := by cases r <;> rfl
  have hNb : N * (u * bs) = N * u * bs := (Nat.mul_assoc _ _ _).symm
  have hcb : (k * u + p + r.count) * bs ≤ N * u * bs := Nat.mul_le_mul_right _ hle
  rw [Nat.add_mul, Nat.add_mul] at hcb
  generalize hm : r.count = m at *
  -- the stored clusters of a unit, as far as they are in the run
  have hkN : k < N := by
    rcases Nat.lt_or_ge k N with hh | hh
    · exact hh
    · have := Nat.mul_le_mul_right u hh
      omega
  have hcut' : ∀ j i, j < N → i < u → k * u + p ≤ j * u + i → j * u + i < k * u + p + m → (i < cut j ↔ (kept r).kind = .inFile) := by
    intro j i hj hi h1 h2
    rw [← hcut j hj i hi]
    have := hk (j * u + i - (k * u + p)) (by omega)
    rw [show k * u + p + (j * u + i - (k * u + p)) = j * u + i by omega] at this
    rw [← this]
    unfold kindOf
    cases st (j * u + i) <;> simp
  have hkind : (kept r).kind = .inFile ∨ (kept r).kind = .sparse := by cases r <;> simp [kept]
  generalize hc' : (g.range.compressed || marks g.last (kept r).kind) = c'
  have hlow : c' = true → (kept r).kind = .sparse ∧ cut k < p + m ∧ cut k < u := by
    intro hct
    have hat := hcut' k p hkN hp (Nat.le_refl _) (by omega)
    have hsp : (kept r).kind = .sparse := by
      rw [← hc', Bool.or_eq_true] at hct
      rcases hct with hct | hct
      · have := h.low hct
        rcases hkind with e | e
        · have := hat.2 e; omega
        · exact e
      · unfold marks at hct
        exact (of_decide_eq_true hct).2.2
    have : ¬ p < cut k := fun hh => by
      have := hat.1 hh
      rw [hsp] at this; cases this
    exact ⟨hsp, by omega, by omega⟩
  have hhigh : 0 < cut k → cut k < p + m → cut k < u → c' = true := by
    intro h0 h1 h2
    rw [← hc', Bool.or_eq_true]
    by_cases hcp : cut k < p
    · exact Or.inl (h.high h0 hcp)
    · have hsp : (kept r).kind = .sparse := by
        rcases hkind with e | e
        · have := (hcut' k (cut k) hkN h2 (by omega) (by omega)).2 e
          omega
        · exact e
      have hcp' : cut k = p := by
        rcases Nat.lt_or_ge p (cut k) with hh | hh
        · have := (hcut' k p hkN hp (Nat.le_refl _) (by omega)).1 hh
          rw [hsp] at this; cases this
        · omega
      right
      have hl := h.last (by omega)
      have hs : st (k * u + p - 1) = true := by
        rw [show k * u + p - 1 = k * u + (p - 1) by omega, hcut k hkN (p - 1) (by omega)]; omega
      rw [hs] at hl
      unfold marks
      rw [hl, hsp]; rfl
  have hlast : ∀ a b : Nat, a * u + b = k * u + p + m → kindOf (st (a * u + b - 1)) = (kept r).kind := by
    intro a b e
    rw [e, show k * u + p + m - 1 = k * u + p + (m - 1) by omega]
    exact hk (m - 1) (by omega)
  unfold gatherRun
  have h0 : flushOnce (u * bs) g = .ok g := by unfold flushOnce; rw [if_neg (by rw [h.size]; omega)]
  rw [h0, R.ok_bind, hcount, R.mulU_ok (by omega), R.ok_bind, h.size, R.addU_ok (by omega), R.ok_bind, hc', ← Nat.add_mul, h.offset]
  by_cases hpm : p + m < u
  · have hlt : (p + m) * bs < u * bs := Nat.mul_lt_mul_of_pos_right hpm hbs
    refine ⟨⟨⟨k * (u * bs), (p + m) * bs, c'⟩, (kept r).kind, g.tree⟩, k, p + m, ?_, ⟨rfl, rfl, fun e => (hlow e).2.1, fun e1 e2 => hhigh e1 e2 (by omega), fun _ => (hlast k (p + m) (by omega)).symm,
      fun e => by omega, h.tree⟩, hpm, by omega⟩
    unfold flushLoop
    rw [if_neg (by simp only; omega)]
  · have hge : u * bs ≤ (p + m) * bs := Nat.mul_le_mul_right _ (by omega)
    have hwhole : ∀ j, k < j → j < N → (j + 1) * u ≤ k * u + p + m → cut j = 0 ∨ cut j = u := by
      intro j hj hjN hj2
      have hju : (k + 1) * u ≤ j * u := Nat.mul_le_mul_right _ hj
      rw [Nat.add_mul, Nat.one_mul] at hju hj2
      rcases hkind with e | e
      · right
        have := (hcut' j (u - 1) hjN (by omega) (by omega) (by omega)).2 e
        have := hcu j; omega
      · left
        rcases Nat.eq_zero_or_pos (cut j) with hz | hz
        · exact hz
        · have := (hcut' j 0 hjN hu (by omega) (by omega)).1 hz
          rw [e] at this; cases this
    have hunits : ∀ j, j * u + u ≤ N * u → j < N := by
      intro j hj
      rcases Nat.lt_or_ge j N with hh | hh
      · exact hh
      · have := Nat.mul_le_mul_right u hh
        omega
    -- the clusters that remain begin a unit
    have hrest : ∀ j q, k < j → q < u → j * u + q = k * u + p + m → 0 < cut j → cut j < q → False := by
      intro j q hj hq e c1 c2
      have hju : (k + 1) * u ≤ j * u := Nat.mul_le_mul_right _ hj
      rw [Nat.add_mul, Nat.one_mul] at hju
      have hjN : j < N := by
        rcases Nat.lt_or_ge j N with hh | hh
        · exact hh
        · have := Nat.mul_le_mul_right u hh
          omega
      have a1 := (hcut' j 0 hjN hu (by omega) (by omega)).1 c1
      have a2 := (hcut' j (cut j) hjN (by omega) (by omega) (by omega)).2 a1
      omega
    have hq0 : ∀ i, i < (p + m) / u → (k + i + 1) * u ≤ k * u + p + m := by
      intro i hi
      have a1 : (i + 1) * u ≤ (p + m) / u * u := Nat.mul_le_mul_right _ (by omega)
      have a2 := Nat.div_mul_le_self (p + m) u
      rw [show k + i + 1 = k + (i + 1) by omega, Nat.add_mul]; omega
    obtain ⟨t, f1, f2, f3, f4⟩ := flush_ok (g := ⟨⟨k * (u * bs), (p + m) * bs, c'⟩, (kept r).kind, g.tree⟩) hbs hu hN rfl rfl h.tree (by omega) (by omega) rfl
      (fun e => (hlow e).2.2) (fun e i hi => by
        have hj := hq0 i hi
        rcases Nat.eq_zero_or_pos i with hi0 | hi0
        · subst hi0
          by_cases hz : 0 < cut k
          · right
            by_cases hlt : cut k < u
            · have e2 : c' = false := e
              have e3 := hhigh hz (by omega) hlt
              rw [e2] at e3; cases e3
            · have := hcu k; simp only [Nat.add_zero]; omega
          · left; simp only [Nat.add_zero]; omega
        · exact hwhole (k + i) (by omega) (hunits _ (by rw [Nat.add_mul, Nat.one_mul] at hj; omega)) hj)
    simp only at f1
    unfold flushLoop
    rw [if_pos hge, f1, R.ok_bind]
    generalize hq : (if c' = true then 1 else (p + m) / u) = q at *
    by_cases hmore : p + m - q * u < u
    · have hlt : (p + m - q * u) * bs < u * bs := Nat.mul_lt_mul_of_pos_right hmore hbs
      have heq : (k + q) * u + (p + m - q * u) = k * u + p + m := by rw [Nat.add_mul]; omega
      refine ⟨⟨⟨(k + q) * (u * bs), (p + m - q * u) * bs, false⟩, (kept r).kind, t⟩, k + q, p + m - q * u, ?_, ⟨rfl, rfl, fun e => (by cases e), fun e1 e2 => ?_, fun _ => (hlast _ _ heq).symm, fun e => by omega, f2⟩, hmore, heq⟩
      · unfold flushLoop
        rw [if_neg (by simp only; omega)]
      · exact (hrest (k + q) _ (by omega) hmore heq e1 e2).elim
    · have hct : c' = true := by
        rcases Bool.eq_false_or_eq_true c' with e | e
        · exact e
        · rw [if_neg (by rw [e]; decide)] at hq
          have := Nat.mod_lt (p + m) hu
          have := Nat.div_add_mod (p + m) u
          rw [Nat.mul_comm, hq] at this; omega
      rw [if_pos hct] at hq
      subst hq
      rw [Nat.one_mul] at *
      generalize hs : p + m - u = s at *
      have hge2 : u * bs ≤ s * bs := Nat.mul_le_mul_right _ (by omega)
      obtain ⟨t2, f5, f6, f7, f8⟩ := flush_ok (g := ⟨⟨(k + 1) * (u * bs), s * bs, false⟩, (kept r).kind, t⟩) hbs hu hN rfl rfl f2
        (by rw [Nat.add_mul, Nat.one_mul]; omega) (by omega) rfl
        (fun e => by cases e) (fun _ i hi => by
          have a1 : (i + 1) * u ≤ s / u * u := Nat.mul_le_mul_right _ (by omega)
          have a2 := Nat.div_mul_le_self s u
          have a3 : (k + 1 + i + 1) * u ≤ k * u + p + m := by
            rw [show k + 1 + i + 1 = k + 1 + (i + 1) by omega, Nat.add_mul, Nat.add_mul, Nat.one_mul]; omega
          exact hwhole (k + 1 + i) (by omega) (hunits _ (by rw [Nat.add_mul, Nat.one_mul] at a3; omega)) a3)
      simp only [Bool.false_eq_true, if_false] at f5 f6 f7 f8
      unfold flushLoop
      rw [if_pos hge2, f5, R.ok_bind]
      have hmod : s - s / u * u < u := by
        have := Nat.mod_lt s hu
        have := Nat.div_add_mod s u
        rw [Nat.mul_comm] at this; omega
      have hlt : (s - s / u * u) * bs < u * bs := Nat.mul_lt_mul_of_pos_right hmod hbs
      have heq : (k + 1 + s / u) * u + (s - s / u * u) = k * u + p + m := by rw [Nat.add_mul, Nat.add_mul, Nat.one_mul]; omega
      refine ⟨⟨⟨(k + 1 + s / u) * (u * bs), (s - s / u * u) * bs, false⟩, (kept r).kind, t2⟩, k + 1 + s / u, s - s / u * u, ?_, ⟨rfl, rfl, fun e => (by cases e), fun e1 e2 => ?_, fun _ => (hlast _ _ heq).symm, fun e => by omega, f6⟩, hmod, heq⟩
      · unfold flushLoop
        rw [if_neg (by simp only; omega)]
      · exact (hrest (k + 1 + s / u) _ (by omega) hmod heq e1 e2).elim

end

/-! ## Clusters -/

theorem places_append (a b : List Run) : places (a ++ b) = places a ++ places b := by
  induction a with
  | nil => rfl
  | cons r a ih => cases r <;> simp [places, ih]

theorem places_length (runs : List Run) : (places runs).length = Layout.total Run.count runs := by
  induction runs with
  | nil => rfl
  | cons r runs ih => rw [Layout.total_cons]; cases r <;> simp [places, ih, Run.count]

theorem mem_places {runs : List Run} {l : Nat} (h : some l ∈ places runs) : ∃ count lcn, Run.data count lcn ∈ runs ∧ lcn ≤ l ∧ l < lcn + count := by
  induction runs with
  | nil => cases h
  | cons r runs ih =>
    cases r with
    | data count lcn =>
      rw [places, List.mem_append] at h
      rcases h with h | h
      · simp only [List.mem_map, Option.some.injEq, exists_eq_right, List.mem_range'_1] at h
        exact ⟨count, lcn, List.mem_cons_self, h⟩
      · obtain ⟨c, x, h1, h2⟩ := ih h
        exact ⟨c, x, List.mem_cons_of_mem _ h1, h2⟩
    | sparse count =>
      rw [places, List.mem_append] at h
      rcases h with h | h
      · rw [List.mem_replicate] at h; cases h.2
      · obtain ⟨c, x, h1, h2⟩ := ih h
        exact ⟨c, x, List.mem_cons_of_mem _ h1, h2⟩

/-- Is a cluster stored? -/
def isStored (P : List (Option Nat)) (i : Nat) : Bool := (P[i]?).join.isSome

theorem places_kind (r : Run) (runs : List Run) : ∃ A, places (r :: runs) = A ++ places runs ∧ A.length = r.count ∧
    ∀ x ∈ A, kindOf x.isSome = (kept r).kind := by
  cases r with
  | data count lcn =>
    refine ⟨_, rfl, by simp [Run.count], fun x hx => ?_⟩
    obtain ⟨l, -, rfl⟩ := List.mem_map.1 hx; rfl
  | sparse count =>
    refine ⟨_, rfl, by simp [Run.count], fun x hx => ?_⟩
    rw [(List.mem_replicate.1 hx).2]; rfl

section
variable {bs u N : Nat} {cut : Nat → Nat} {P : List (Option Nat)}

theorem gatherRuns_ok (hbs : 0 < bs) (hu : 0 < u) (hN : N * (u * bs) < 2 ^ 63) (hcut : ∀ j, j < N → ∀ i, i < u → (isStored P (j * u + i) = true ↔ i < cut j))
    (hcu : ∀ j, cut j ≤ u) (hPl : P.length = N * u) (runs : List Run) (hr : ∀ r ∈ runs, 0 < r.count) (rest : List (Option Nat)) {k p : Nat} {g : Gathering}
    (h : Gathered bs u N cut (isStored P) k p g) (hp : p < u) (hd : P.drop (k * u + p) = places runs ++ rest) :
    ∃ g' k' p', gatherRuns bs (u * bs) (runs.map kept) g = .ok g' ∧ Gathered bs u N cut (isStored P) k' p' g' ∧ p' < u ∧ P.drop (k' * u + p') = rest ∧
      k' * u + p' = k * u + p + (places runs).length := by
  induction runs generalizing k p g with
  | nil => exact ⟨g, k, p, rfl, h, hp, hd, rfl⟩
  | cons r runs ih =>
    obtain ⟨A, a1, a2, a3⟩ := places_kind r runs
    rw [a1, List.append_assoc] at hd
    have hlen : k * u + p + r.count ≤ P.length := by
      have := congrArg List.length hd
      have hr0 := hr r List.mem_cons_self
      rw [List.length_drop, List.length_append, a2] at this
      omega
    obtain ⟨g1, k1, p1, e1, e2, e3, e4⟩ := gatherRun_ok hbs hu hN hcut hcu h hp r (hr r List.mem_cons_self) (fun i hi => by
      have : P[k * u + p + i]? = A[i]? := by rw [← List.getElem?_drop, hd, List.getElem?_append_left (by omega)]
      unfold isStored
      rw [this, List.getElem?_eq_getElem (by omega)]
      exact a3 _ (List.getElem_mem _)) (by omega)
    obtain ⟨g2, k2, p2, f1, f2, f3, f4, f5⟩ := ih (fun x hx => hr x (List.mem_cons_of_mem _ hx)) e2 e3 (by
      rw [e4, ← List.drop_drop, hd]
      exact Ntfs.drop_left a2)
    refine ⟨g2, k2, p2, ?_, f2, f3, f4, ?_⟩
    · rw [List.map_cons, gatherRuns, e1, R.ok_bind, f1]
    · rw [f5, a1, List.length_append, a2]; omega

theorem gatherGroups_ok (hbs : 0 < bs) (hu : 0 < u) (hN : N * (u * bs) < 2 ^ 63) (hcut : ∀ j, j < N → ∀ i, i < u → (isStored P (j * u + i) = true ↔ i < cut j))
    (hcu : ∀ j, cut j ≤ u) (hPl : P.length = N * u) (qs : List Piece) (hr : ∀ q ∈ qs, ∀ r ∈ q.runs, 0 < r.count) {k p : Nat} {g : Gathering}
    (h : Gathered bs u N cut (isStored P) k p g) (hp : p < u) (hd : P.drop (k * u + p) = places (qs.flatMap Piece.runs)) (hle : k * u + p ≤ P.length) :
    ∃ g', gatherGroups bs (u * bs) (qs.map groupOf) g = .ok g' ∧ Gathered bs u N cut (isStored P) N 0 g' := by
  induction qs generalizing k p g with
  | nil =>
    have hl := congrArg List.length hd
    rw [List.length_drop] at hl
    simp only [List.flatMap_nil, places, List.length_nil] at hl
    have hk : k = N ∧ p = 0 := by
      have e : k * u + p = N * u := by omega
      have e1 : (k * u + p) / u = k := by rw [Nat.mul_comm, Nat.mul_add_div hu, Nat.div_eq_of_lt hp, Nat.add_zero]
      rw [e, Nat.mul_div_cancel _ hu] at e1
      subst e1
      exact ⟨rfl, by omega⟩
    obtain ⟨rfl, rfl⟩ := hk
    exact ⟨g, rfl, h⟩
  | cons q qs ih =>
    rw [List.flatMap_cons, places_append] at hd
    obtain ⟨g1, k1, p1, e1, e2, e3, e4, e5⟩ := gatherRuns_ok hbs hu hN hcut hcu hPl q.runs (hr q List.mem_cons_self) _ h hp hd
    obtain ⟨g2, f1, f2⟩ := ih (fun x hx => hr x (List.mem_cons_of_mem _ hx)) e2 e3 e4 (by
      have := congrArg List.length hd
      rw [List.length_drop, List.length_append] at this
      omega)
    refine ⟨g2, ?_, f2⟩
    rw [List.map_cons, gatherGroups]
    show (gatherRuns bs (u * bs) (q.runs.map kept) g >>= _) = _
    rw [e1, R.ok_bind, f1]

end

/-! ## Units -/

/-- The bytes of a cluster. -/
def placeBytes (U : List Byte) (bs : Nat) : Option Nat → List Byte
  | some lcn => bytesAt U (lcn * bs) bs
  | none => List.replicate bs 0#8

def rawOf (U : List Byte) (bs : Nat) (c : List (Option Nat)) : List Byte := c.flatMap (placeBytes U bs)

theorem run_places (U : List Byte) (bs : Nat) (r : Run) : r.bytes U bs = (places [r]).flatMap (placeBytes U bs) := by
  cases r with
  | data count lcn =>
    show (U.drop (lcn * bs)).take (count * bs) = ((List.range' lcn count).map some ++ []).flatMap (placeBytes U bs)
    rw [List.append_nil, List.flatMap_map]
    induction count generalizing lcn with
    | zero => simp
    | succ count ih =>
      rw [List.range'_succ, List.flatMap_cons, ← ih (lcn + 1), Nat.add_mul, Nat.one_mul, Nat.add_comm (count * bs), List.take_add, List.drop_drop, Nat.add_mul, Nat.one_mul]
      rfl
  | sparse count =>
    show List.replicate (count * bs) 0#8 = (List.replicate count none ++ []).flatMap (placeBytes U bs)
    rw [List.append_nil]
    induction count with
    | zero => simp
    | succ count ih =>
      rw [List.replicate_succ, List.flatMap_cons, ← ih, Nat.add_mul, Nat.one_mul, Nat.add_comm, List.replicate_add]
      rfl

theorem runs_places (U : List Byte) (bs : Nat) (runs : List Run) : runs.flatMap (Run.bytes U bs) = (places runs).flatMap (placeBytes U bs) := by
  induction runs with
  | nil => rfl
  | cons r runs ih =>
    rw [List.flatMap_cons, ih, run_places, ← List.flatMap_append, ← places_append]; rfl

theorem raw_stored (U : List Byte) (bs : Nat) (lcns : List Nat) : rawOf U bs (lcns.map some) = stored U bs lcns := by
  unfold rawOf stored
  rw [List.flatMap_map]; rfl

theorem raw_sparse (U : List Byte) (bs n : Nat) : rawOf U bs (List.replicate n none) = List.replicate (n * bs) 0#8 := by
  have := run_places U bs (.sparse n)
  simp only [Run.bytes, places, List.append_nil] at this
  exact this.symm

/-- All stored clusters are in the volume. -/
def InU (U : List Byte) (bs : Nat) (c : List (Option Nat)) : Prop := ∀ l, some l ∈ c → (l + 1) * bs ≤ U.length

theorem place_length {U : List Byte} {bs : Nat} {c : List (Option Nat)} (h : InU U bs c) : ∀ x ∈ c, (placeBytes U bs x).length = bs := by
  intro x hx
  cases x with
  | none => simp [placeBytes]
  | some l =>
    have := h l hx
    rw [Nat.add_mul, Nat.one_mul] at this
    exact bytesAt_length this

theorem raw_length {U : List Byte} {bs : Nat} {c : List (Option Nat)} (h : InU U bs c) : (rawOf U bs c).length = c.length * bs :=
  flatMap_uniform_length (place_length h)

/-- What is known of a unit. -/
structure UnitOk (U : List Byte) (bs : Nat) (c : List (Option Nat)) (b : List Byte) (cut : Nat) : Prop where
  length : b.length = c.length * bs
  atMost : cut ≤ c.length
  stored : ∀ i, i < c.length → (isStored c i = true ↔ i < cut)
  same : cut = 0 ∨ cut = c.length → b = rawOf U bs c
  unpack : cut < c.length → ∃ n, Lznt1.decompress (rawOf U bs c) (List.replicate (c.length * bs) 0#8) = .ok (b, n)

theorem isStored_shape (lcns : List Nat) (n i : Nat) (hi : i < lcns.length + n) :
    isStored (lcns.map some ++ List.replicate n none) i = true ↔ i < lcns.length := by
  unfold isStored
  by_cases h : i < lcns.length
  · rw [List.getElem?_append_left (by simpa using h), List.getElem?_map, List.getElem?_eq_getElem h]
    simp [h]
  · rw [List.getElem?_append_right (by simpa using Nat.le_of_not_lt h), List.getElem?_replicate, List.length_map, if_pos (by omega)]
    simp [h]

theorem count_shape (lcns : List Nat) (n : Nat) : (lcns.map some ++ List.replicate n none).countP Option.isSome = lcns.length := by
  rw [List.countP_append, List.countP_map, List.countP_replicate]
  simp [List.countP_eq_length.2, Function.comp_def]

theorem unit_ok {U : List Byte} {bs : Nat} (hbs : 2 ≤ bs) {c : List (Option Nat)} {b : List Byte} (h : UnitIs U bs c b) (hU : InU U bs c) :
    UnitOk U bs c b (c.countP Option.isSome) := by
  have hraw := raw_length hU
  cases h with
  | stored lcns hne =>
    have hc := count_shape lcns 0
    have hs := isStored_shape lcns 0
    rw [List.replicate_zero, List.append_nil] at hc hs
    rw [hc]
    have hl : (lcns.map some).length = lcns.length := List.length_map ..
    refine ⟨by rw [← raw_stored]; exact hraw, by omega, fun i hi => hs i (by omega), fun _ => (raw_stored U bs lcns).symm, fun hlt => by omega⟩
  | sparse n =>
    have hc := count_shape [] n
    have hs := isStored_shape [] n
    rw [List.map_nil, List.nil_append] at hc hs
    rw [hc]
    have hl : (List.replicate n (none : Option Nat)).length = n := List.length_replicate
    refine ⟨by simp, Nat.zero_le _, fun i hi => hs i (by simp at hi ⊢; omega), fun _ => (raw_sparse U bs n).symm, fun hlt => ?_⟩
    rw [hl] at hlt ⊢
    rw [raw_sparse]
    have h2 : 2 ≤ n * bs := Nat.le_trans hbs (Nat.le_mul_of_pos_left _ hlt)
    have := Props.C24_lznt1_decode [] (fun b hb => by cases hb) (List.replicate (n * bs) 0#8) (List.replicate (n * bs) 0#8)
      (Or.inr ⟨List.replicate (n * bs - 2) 0#8, by
        rw [show n * bs = n * bs - 2 + 1 + 1 by omega, List.replicate_succ, List.replicate_succ]; simp⟩) (by simp [Lznt1.denote])
    simp only [Lznt1.encode, Lznt1.denote, List.flatMap_nil, List.nil_append, List.length_nil, List.drop_zero] at this
    exact ⟨_, this⟩
  | compressed lcns n blocks tail hne hn hw he ht hd =>
    rw [count_shape]
    have hl : (lcns.map some ++ List.replicate n (none : Option Nat)).length = lcns.length + n := by simp
    have hl0 : 0 < lcns.length := List.length_pos_iff.2 hne
    refine ⟨?_, by omega, fun i hi => isStored_shape lcns n i (by omega), fun hz => by omega, fun _ => ?_⟩
    · rw [hl, List.length_append, List.length_replicate]; omega
    · rw [hl]
      have hr : rawOf U bs (lcns.map some ++ List.replicate n none) = Lznt1.encode blocks ++ (tail ++ List.replicate (n * bs) 0#8) := by
        rw [← List.append_assoc, ← he, ← raw_stored, ← raw_sparse U]
        exact List.flatMap_append
      have h2 : 2 ≤ n * bs := Nat.le_trans hbs (Nat.le_mul_of_pos_left _ hn)
      have := Props.C24_lznt1_decode blocks hw (tail ++ List.replicate (n * bs) 0#8) (List.replicate ((lcns.length + n) * bs) 0#8)
        (Or.inr (by
          rcases ht with rfl | ⟨t, rfl⟩
          · refine ⟨List.replicate (n * bs - 2) 0#8, ?_⟩
            rw [List.nil_append]
            conv => lhs; rw [show n * bs = n * bs - 2 + 1 + 1 by omega, List.replicate_succ, List.replicate_succ]
          · exact ⟨t ++ List.replicate (n * bs) 0#8, rfl⟩)) (by simpa using hd)
      rw [List.drop_replicate] at this
      rw [hr]
      exact ⟨_, this⟩

/-! ## Opening -/

/-- The number of stored clusters of a unit. -/
def cutOf (units : List (List (Option Nat) × List Byte)) (j : Nat) : Nat := match units[j]? with
  | some x => x.1.countP Option.isSome
  | none => 0

/-- What is stored for the units. -/
def rawUnits (U : List Byte) (bs : Nat) (units : List (List (Option Nat) × List Byte)) : List Byte := units.flatMap fun x => rawOf U bs x.1

/-- An opened stream. -/
structure CompressedOk (U : List Byte) (bs u valid : Nat) (units : List (List (Option Nat) × List Byte)) (c : Compressed) : Prop where
  unit : c.unit = u * bs
  size : c.size = valid
  tree : TreeOk (u * bs) u (cutOf units) (units.length * (u * bs)) units.length c.tree
  read : ∀ pos n, 0 < n → pos + n ≤ units.length * (u * bs) →
    (Stream.mk () pos).read (Ntfs.stream U bs c.blocks) n = .ok (((rawUnits U bs units).drop pos).take n, ⟨(), pos + n⟩)

theorem block_read {U : List Byte} {bs : Nat} {runs : List Run} {tree : BlockTree.Tree Range} {size : Nat}
    (hin : ∀ count lcn, Run.data count lcn ∈ runs → (lcn + count) * bs ≤ U.length) (hU : U.length < 2 ^ 64)
    (hh : BlockTree.Holds tree (Layout.ranges (runLen bs) runRange 0 runs)) (htot : Layout.total (runLen bs) runs = size) (hs : size ≤ tree.dataSize)
    (hd : tree.dataSize < 2 ^ 63) {pos n : Nat} (hn : 0 < n) (hpos : pos + n ≤ size) :
    (Stream.mk () pos).read (Ntfs.stream U bs ⟨tree, size, size⟩) n = .ok (((runs.flatMap (Run.bytes U bs)).drop pos).take n, ⟨(), pos + n⟩) := by
  have hbl : (runs.flatMap (Run.bytes U bs)).length = size := by
    rw [← htot]
    exact Layout.flatMap_length _ _ _ fun r hr => Ntfs.Run.bytes_length fun count lcn e => hin count lcn (e ▸ hr)
  have hc : contents U bs runs size size = runs.flatMap (Run.bytes U bs) := by
    unfold contents
    rw [Nat.sub_self, List.replicate_zero, List.append_nil, List.take_of_length_le (by omega)]
  have hpiece := fun (pos n : Nat) => Ntfs.piece_spec (volume := U) (bs := bs) (runs := runs) (s := ⟨tree, size, size⟩)
    (pos := pos) (n := n) hin hU hh (by show _ ≤ tree.dataSize; omega) hd (by show size ≤ _; omega) (Nat.le_refl _)
  have hok : Blocks.PieceOk (Ntfs.piece U bs ⟨tree, size, size⟩) (fun _ => True) (runs.flatMap (Run.bytes U bs)) := by
    intro s pos n out s' _ hn hp h
    obtain ⟨out', h1, h2, h3⟩ := hpiece pos n hn (by rw [hbl] at hp; exact hp)
    rw [h1] at h
    cases h
    exact ⟨trivial, h2, hc ▸ h3⟩
  have htotal : Blocks.PieceTotal (Ntfs.piece U bs ⟨tree, size, size⟩) (fun _ => True) (runs.flatMap (Run.bytes U bs)) := by
    intro s pos n _ hn hp
    obtain ⟨out', h1, -, -⟩ := hpiece pos n hn (by rw [hbl] at hp; exact hp)
    exact ⟨_, _, h1⟩
  obtain ⟨out, s', h1⟩ := Blocks.loop_total hok htotal (by omega) n (s := ()) (pos := pos) (n := n) trivial (by omega) (Nat.le_refl _)
  obtain ⟨-, h2⟩ := Blocks.loop_ok hok n (s := ()) (pos := pos) (n := n) trivial (by omega) h1
  have hol : out.length = n := by rw [h2, List.length_take, List.length_drop]; omega
  unfold Stream.read
  have hsz : (Ntfs.stream U bs ⟨tree, size, size⟩).size = size := rfl
  simp only [hsz]
  rw [if_neg (by omega), Nat.min_eq_left (by omega)]
  show (Blocks.loop (Ntfs.piece U bs ⟨tree, size, size⟩) size n () pos n >>= _) = _
  rw [hbl] at h1
  rw [h1, R.ok_bind]
  simp only
  rw [R.addU_ok (by omega), R.ok_bind, hol, h2]
  rfl

theorem openCompressed_ok {U : List Byte} {A : Attr} {flags : Nat} {p : Piece} {ps : List Piece} {units : List (List (Option Nat) × List Byte)}
    (hb : Spec.NtfsFs.Boot U) (hU : U.length < 2 ^ 63) (h : Kept A flags p ps) (hf : flags % 256 = 1) (hg : Follow 0 ((p :: ps).map pieceGroup))
    (hv : InVolume U p ps) (hu : Units U p ps units) :
    ∃ c, openCompressed (clusterSize U) A = .ok c ∧ CompressedOk U (clusterSize U) (2 ^ p.unit) p.valid units c ∧
      units.length * (2 ^ p.unit * clusterSize U) = p.allocated ∧ ∀ x ∈ units, UnitOk U (clusterSize U) x.1 x.2 (x.1.countP Option.isSome) := by
  have hbs := cluster_pos hb
  have hbs2 : 2 ≤ clusterSize U := by
    obtain ⟨k, h1, -, h2⟩ := hb.cluster
    rw [h2]
    calc 2 = 2 ^ 1 := rfl
      _ ≤ 2 ^ k := Nat.pow_le_pow_right (by decide) (by omega)
  have hu0 : 0 < 2 ^ p.unit := Nat.two_pow_pos _
  generalize hbsg : clusterSize U = bs at *
  generalize hug : 2 ^ p.unit = u at *
  generalize hrunsg : (p :: ps).flatMap Piece.runs = runs at *
  have hmem : ∀ r, r ∈ runs → ∃ q ∈ p :: ps, r ∈ q.runs := fun r hr => by rw [← hrunsg] at hr; exact List.mem_flatMap.1 hr
  have hin : ∀ count lcn, Run.data count lcn ∈ runs → (lcn + count) * bs ≤ U.length := fun count lcn hr => by
    obtain ⟨q, hq, hr⟩ := hmem _ hr
    have := hv.inside q hq count lcn hr
    rwa [hbsg] at this
  have hall : places runs = units.flatMap Prod.fst := by rw [← hrunsg]; exact hu.all
  have hwhole : ∀ x ∈ units, x.1.length = u := fun x hx => by rw [← hug]; exact hu.whole x hx
  have hPl : (places runs).length = units.length * u := by rw [hall]; exact flatMap_uniform_length hwhole
  have halloc : Layout.total (runLen bs) runs = p.allocated := by
    have := hv.allocated
    rw [hrunsg, hbsg] at this
    exact this
  have hN : units.length * (u * bs) = p.allocated := by
    rw [← halloc, ← Nat.mul_assoc, ← hPl, places_length]
    clear * -
    induction runs with
    | nil => simp [Layout.total]
    | cons r runs ih => rw [Layout.total_cons, Layout.total_cons, Nat.add_mul, ih]; rfl
  have hfits := hv.fits
  have hpos := hv.some
  have hUnit : ∀ x ∈ units, UnitOk U bs x.1 x.2 (x.1.countP Option.isSome) := fun x hx => by
    refine unit_ok hbs2 (by rw [← hbsg]; exact hu.bytes x hx) fun l hl => ?_
    obtain ⟨count, lcn, h1, h2, h3⟩ := mem_places (runs := runs) (l := l) (by rw [hall]; exact List.mem_flatMap.2 ⟨x, hx, hl⟩)
    exact Nat.le_trans (Nat.mul_le_mul_right _ (by omega)) (hin count lcn h1)
  have hcut : ∀ j, j < units.length → ∀ i, i < u → (isStored (places runs) (j * u + i) = true ↔ i < cutOf units j) := by
    intro j hj i hi
    unfold isStored cutOf
    rw [hall, flatMap_uniform hwhole hi, List.getElem?_eq_getElem hj]
    have hx := List.getElem_mem hj
    exact (hUnit _ hx).stored i (by rw [hwhole _ hx]; exact hi)
  have hcu : ∀ j, cutOf units j ≤ u := by
    intro j
    unfold cutOf
    cases hj : units[j]? with
    | none => exact Nat.zero_le _
    | some x =>
      have hx := List.mem_of_getElem? hj
      have := (hUnit x hx).atMost
      rw [hwhole x hx] at this
      exact this
  have hcomp : A.isCompressed = true := by
    have : flags &&& 0xff = flags % 256 := Nat.and_two_pow_sub_one_eq_mod flags 8
    simp [Attr.isCompressed, h.flags, this, hf]
  have hres : A.isResident = false := by simp [Attr.isResident, h.nonResident]
  have hunit : A.unit = u := by
    have := h.unit
    rw [if_neg (by have := hu.exponent; omega), hug] at this
    exact this
  have hub : u * bs < 2 ^ 63 := by
    have := hu.fits
    rw [hug, hbsg] at this; exact this
  have hunit0 : 0 < u * bs := Nat.mul_pos hu0 hbs
  -- the block stream
  have hdc : BlockTree.divCeil p.allocated bs * bs ≤ p.allocated + bs - 1 := Nat.div_mul_le_self _ _
  have hdl : p.allocated ≤ BlockTree.divCeil p.allocated bs * bs := by
    rw [Nat.mul_comm]; exact BlockTree.le_divCeil_mul hbs
  rw [hbsg] at hfits
  obtain ⟨tree, e1, e2, e3⟩ := Ntfs.openGroups_ok hbs ((p :: ps).map pieceGroup)
    (fun g hg r hr => by
      obtain ⟨q, hq, rfl⟩ := List.mem_map.1 hg
      exact hv.positive q hq r hr) (vcn := 0) (off := 0) hg
    (tree := BlockTree.new (BlockTree.divCeil p.allocated bs * bs) 0 bs) (BlockTree.new_holds _ _ _ hbs) rfl rfl
    (by simp only [BlockTree.new]; omega) (Nat.dvd_zero _) (by
      rw [Nat.zero_add, flatMap_pieceGroup, hrunsg, halloc]; exact hdl) (by simp) (Nat.le_refl _)
  rw [List.nil_append, flatMap_pieceGroup, hrunsg] at e2
  have hds : tree.dataSize = BlockTree.divCeil p.allocated bs * bs := e3
  have hblocks : Ntfs.openStream bs A.opens = .ok ⟨tree, p.allocated, p.allocated⟩ := by
    unfold Ntfs.openStream Attr.opens
    simp only [hres, hcomp, h.allocated]
    rw [R.require_true trivial, R.ok_bind, R.check_true (by omega), R.ok_bind, R.mulU_ok (by omega), R.ok_bind]
    unfold Ntfs.openTree
    simp only
    rw [if_pos hpos, h.groups]
    have hge : ((p :: ps).map groupOf).map (fun g => (⟨g.1, g.2.1, g.2.2⟩ : Ntfs.Group)) = ((p :: ps).map pieceGroup).map Ntfs.keptGroup := by
      rw [List.map_map, List.map_map]; rfl
    rw [hge, e1, R.ok_bind]
    rfl
  -- the units
  have hg0 : Gathered bs u units.length (cutOf units) (isStored (places runs)) 0 0
      ⟨⟨0, 0, false⟩, .endOfList, BlockTree.new (units.length * (u * bs)) 0 (u * bs)⟩ :=
    ⟨by simp, by simp, fun e => (nomatch e), fun _ e => by omega, fun e => by omega, fun _ => rfl,
      ⟨⟨[], BlockTree.new_holds _ _ _ hunit0, ⟨fun r hr => (nomatch hr), fun j hj => by omega⟩⟩, rfl, rfl, rfl⟩⟩
  obtain ⟨g, f1, f2⟩ := gatherGroups_ok hbs hu0 (N := units.length) (by omega) hcut hcu hPl (p :: ps) hv.positive hg0 hu0
    (by rw [hrunsg]; simp) (by simp)
  refine ⟨⟨⟨tree, p.allocated, p.allocated⟩, g.tree, u * bs, p.valid⟩, ?_, ⟨rfl, rfl, f2.tree, fun pos n hn hle => ?_⟩, hN, hUnit⟩
  · have hdv : BlockTree.divCeil p.allocated (u * bs) * (u * bs) = units.length * (u * bs) := by
      have h1 : BlockTree.divCeil p.allocated (u * bs) * (u * bs) ≤ p.allocated + u * bs - 1 := Nat.div_mul_le_self _ _
      have h2 : p.allocated ≤ BlockTree.divCeil p.allocated (u * bs) * (u * bs) := by
        rw [Nat.mul_comm]; exact BlockTree.le_divCeil_mul hunit0
      rw [← hN] at h1 h2 ⊢
      have h3 := Nat.le_of_mul_le_mul_right h2 hunit0
      rcases Nat.lt_or_ge units.length (BlockTree.divCeil (units.length * (u * bs)) (u * bs)) with hlt | hge
      · have := Nat.mul_le_mul_right (u * bs) hlt
        rw [Nat.succ_mul] at this; omega
      · rw [Nat.le_antisymm hge h3]
    unfold openCompressed
    rw [R.require_true hcomp, R.ok_bind, R.require_true hres, R.ok_bind, hunit, R.require_true (by omega), R.ok_bind, hblocks, R.ok_bind,
      R.mulU_ok (by omega), R.ok_bind, R.check_true (by omega), R.ok_bind, h.allocated,
      R.require_true (by rw [← hN]; exact Nat.mul_mod_left _ _), R.ok_bind, R.mulU_ok (by rw [hdv]; omega), R.ok_bind, hdv]
    unfold unitTree
    rw [if_pos (by rw [h.allocated]; exact hpos), h.groups, f1, R.ok_bind]
    unfold gatherEnd
    rw [if_neg (by rw [f2.size]; omega), R.ok_bind, h.valid]
    rfl
  · have := block_read (U := U) (bs := bs) (runs := runs) (tree := tree) (size := p.allocated) hin (by omega) e2 halloc (by omega) (by omega) hn
      (by rw [← hN]; exact hle)
    rw [this]
    have : rawUnits U bs units = runs.flatMap (Run.bytes U bs) := by
      rw [runs_places, hall, List.flatMap_assoc]; rfl
    rw [this]

/-! ## Reading -/

structure UnitCacheOk (unit : Nat) (units : List (List (Option Nat) × List Byte)) (c : UnitCache) : Prop where
  capacity : c.numberOfEntries = 8
  usage : c.usage.length ≤ 8
  values : ∀ k v, c.values k = some v → ∃ j x, k = j * unit ∧ units[j]? = some x ∧ v = x.2

theorem newUnitCache_ok (unit : Nat) (units : List (List (Option Nat) × List Byte)) : UnitCacheOk unit units newUnitCache :=
  ⟨rfl, Nat.zero_le _, fun k v h => by cases h⟩

theorem insert_unit {unit : Nat} {units : List (List (Option Nat) × List Byte)} {c : UnitCache} (h : UnitCacheOk unit units c) {j : Nat} {x : List (Option Nat) × List Byte}
    (hx : units[j]? = some x) : ∃ c', c.insert (j * unit) x.2 = .ok c' ∧ UnitCacheOk unit units c' ∧ c'.get (j * unit) = some x.2 := by
  unfold LruCache.Cache.insert
  have hcap := h.capacity
  have hus := h.usage
  by_cases hf : c.usage.length = c.numberOfEntries
  · rw [if_pos hf]
    cases hu : c.usage with
    | nil => rw [hu] at hf; simp at hf; omega
    | cons l rest =>
      simp only [R.ok_bind]
      refine ⟨_, rfl, ⟨hcap, ?_, fun k v hv => ?_⟩, by simp [LruCache.Cache.get]⟩
      · rw [hu] at hus; simpa using hus
      · simp only at hv
        split at hv
        · next hk => exact ⟨j, x, hk, hx, (Option.some.inj hv).symm⟩
        · split at hv
          · cases hv
          · exact h.values k v hv
  · rw [if_neg hf, R.ok_bind]
    refine ⟨_, rfl, ⟨hcap, ?_, fun k v hv => ?_⟩, by simp [LruCache.Cache.get]⟩
    · simp only [List.length_append, List.length_singleton]; omega
    · simp only at hv
      split at hv
      · next hk => exact ⟨j, x, hk, hx, (Option.some.inj hv).symm⟩
      · exact h.values k v hv

section
variable {U : List Byte} {bs u valid : Nat} {units : List (List (Option Nat) × List Byte)} {c : Compressed}

theorem cachedUnit_ok (hbs : 0 < bs) (hu : 0 < u) (hc : CompressedOk U bs u valid units c) (hw : ∀ x ∈ units, x.1.length = u)
    (hk : ∀ x ∈ units, UnitOk U bs x.1 x.2 (x.1.countP Option.isSome)) (hr : ∀ x ∈ units, (rawOf U bs x.1).length = u * bs)
    {cache : UnitCache} (h : UnitCacheOk (u * bs) units cache) {j : Nat}
    (hj : j < units.length) (hcut : cutOf units j < u) {x : List (Option Nat) × List Byte} (hx : units[j]? = some x) :
    ∃ cache', cachedUnit U bs c cache ⟨j * (u * bs), 1 * (u * bs), true⟩ = .ok cache' ∧ UnitCacheOk (u * bs) units cache' ∧
      cache'.get (j * (u * bs)) = some x.2 := by
  have hunit : 0 < u * bs := Nat.mul_pos hu hbs
  have hxm := List.mem_of_getElem? hx
  unfold cachedUnit
  simp only
  by_cases hcon : cache.contains (j * (u * bs)) = true
  · rw [if_pos hcon]
    refine ⟨cache, rfl, h, ?_⟩
    unfold LruCache.Cache.contains at hcon
    obtain ⟨v, hv⟩ := Option.isSome_iff_exists.1 hcon
    obtain ⟨j', x', e1, e2, e3⟩ := h.values _ _ hv
    have : j = j' := Nat.eq_of_mul_eq_mul_right hunit e1
    subst this
    rw [hx] at e2
    cases e2
    rw [← e3]; exact hv
  · rw [if_neg hcon]
    have hcut' : x.1.countP Option.isSome < x.1.length := by
      unfold cutOf at hcut
      rw [hx] at hcut
      rw [hw x hxm]; exact hcut
    obtain ⟨n, hn⟩ := (hk x hxm).unpack hcut'
    have hraw : ((rawUnits U bs units).drop (j * (u * bs))).take (u * bs) = rawOf U bs x.1 := by
      apply List.ext_getElem?
      intro i
      by_cases hi : i < u * bs
      · rw [List.getElem?_take_of_lt hi, List.getElem?_drop]
        unfold rawUnits
        rw [flatMap_uniform hr hi, hx]; rfl
      · rw [List.getElem?_eq_none (by rw [List.length_take]; omega), List.getElem?_eq_none (by rw [hr x hxm]; omega)]
    have hle : j * (u * bs) + u * bs ≤ units.length * (u * bs) := by
      rw [← Nat.succ_mul]; exact Nat.mul_le_mul_right _ hj
    have hread : readUnitData U bs c ⟨j * (u * bs), 1 * (u * bs), true⟩ = .ok x.2 := by
      unfold readUnitData
      simp only [Nat.one_mul]
      rw [hc.read _ _ hunit hle, R.ok_bind, hraw]
      simp only
      rw [R.require_true (hr x hxm), R.ok_bind, hc.unit]
      rw [hw x hxm] at hn
      rw [hn, R.ok_bind]; rfl
    rw [hread, R.ok_bind]
    exact insert_unit h hx

/-- One iteration: it reads what is there, or it is a read that is not inside of a compressed unit. -/
theorem unitPiece_cases (hbs : 0 < bs) (hu : 0 < u) (hN : units.length * (u * bs) < 2 ^ 63) (hc : CompressedOk U bs u valid units c)
    (hw : ∀ x ∈ units, x.1.length = u) (hk : ∀ x ∈ units, UnitOk U bs x.1 x.2 (x.1.countP Option.isSome))
    (hr : ∀ x ∈ units, (rawOf U bs x.1).length = u * bs) (hv : valid ≤ units.length * (u * bs))
    {cache : UnitCache} (h : UnitCacheOk (u * bs) units cache) {pos n : Nat} (hn : 0 < n) (hpos : pos + n ≤ valid) :
    (∃ out cache', unitPiece U bs c cache pos n = .ok (out, cache') ∧ UnitCacheOk (u * bs) units cache' ∧ out ≠ [] ∧
      out <+: (((units.flatMap Prod.snd).take valid).drop pos).take n ∧ (out.length < n → (pos + out.length) % (u * bs) = 0) ∧
      (0 < cutOf units (pos / (u * bs)) → cutOf units (pos / (u * bs)) < u → pos % (u * bs) + min n (u * bs) ≤ u * bs)) ∨
    (unitPiece U bs c cache pos n = .panic ∧ cutOf units (pos / (u * bs)) < u ∧ u * bs < pos % (u * bs) + min n (u * bs)) := by
  have hunit : 0 < u * bs := Nat.mul_pos hu hbs
  have hsnd : ∀ x ∈ units, x.2.length = u * bs := fun x hx => by rw [(hk x hx).length, hw x hx]
  have hlen : (units.flatMap Prod.snd).length = units.length * (u * bs) := flatMap_uniform_length hsnd
  have htree := hc.tree
  generalize hug : u * bs = unit at *
  generalize hq : pos / unit = j at *
  have hdm := Nat.div_add_mod pos unit
  have hmlt := Nat.mod_lt pos hunit
  rw [hq, Nat.mul_comm] at hdm
  generalize hrel : pos % unit = rel at *
  have hjN : j < units.length := by
    rcases Nat.lt_or_ge j units.length with hh | hh
    · exact hh
    · have := Nat.mul_le_mul_right unit hh
      omega
  obtain ⟨x, hx⟩ : ∃ x, units[j]? = some x := ⟨_, List.getElem?_eq_getElem hjN⟩
  have hxm := List.mem_of_getElem? hx
  obtain ⟨⟨rs, t1, t2⟩, t3, -, -⟩ := htree
  obtain ⟨r, r1, r2, r3⟩ := t2.every j hjN
  obtain ⟨j0, m, fl, rfl, m0, mk, m1, m2⟩ := t2.each r r1
  simp only at r2 r3
  rw [← Nat.add_mul] at r3
  have hj0 : j0 ≤ j := Nat.le_of_mul_le_mul_right r2 hunit
  have hj1 : j + 1 ≤ j0 + m := Nat.le_of_mul_le_mul_right r3 hunit
  have hlast : (j0 + m) * unit ≤ units.length * unit := Nat.mul_le_mul_right _ mk
  have hin : j * unit + unit ≤ (j0 + m) * unit := by rw [← Nat.succ_mul]; exact Nat.mul_le_mul_right _ hj1
  have hget : BlockTree.get c.tree pos = .ok (some ⟨j0 * unit, m * unit, fl⟩) :=
    BlockTree.get_range (r := ⟨j0 * unit, m * unit, ⟨j0 * unit, m * unit, fl⟩⟩) t1 r1 ⟨by show j0 * unit ≤ pos; omega, by
      show pos < j0 * unit + m * unit
      rw [← Nat.add_mul]; omega⟩ (by rw [t3]; omega)
  have hstart : unitPiece U bs c cache pos n = unitBytes U bs c cache ⟨j0 * unit, m * unit, fl⟩ pos (pos - j0 * unit)
      (min ((j0 + m) * unit) valid - j0 * unit - (pos - j0 * unit)) n := by
    unfold unitPiece
    rw [hget, R.ok_bind]
    simp only [Fat.orErr, R.ok_bind]
    rw [R.subU_ok (by omega), R.ok_bind, R.addU_ok (by rw [← Nat.add_mul]; omega), R.ok_bind, ← Nat.add_mul, hc.size, R.subU_ok (by omega), R.ok_bind,
      R.subU_ok (by omega), R.ok_bind]
  have hCl : ((units.flatMap Prod.snd).take valid).length = valid := by rw [List.length_take, hlen]; omega
  cases fl with
  | true =>
    obtain ⟨rfl, hcut⟩ := m1 rfl
    have hjj : j0 = j := by omega
    subst hjj
    have hrel' : pos - j0 * unit = rel := by omega
    rw [hrel'] at hstart
    obtain ⟨cache', c1, c2, c3⟩ := cachedUnit_ok hbs hu hc hw hk (by rw [hug]; exact hr) (by rw [hug]; exact h) hjN hcut hx
    rw [hug] at c1 c2 c3
    have hb : unitBytes U bs c cache ⟨j0 * unit, 1 * unit, true⟩ pos rel (min ((j0 + 1) * unit) valid - j0 * unit - rel) n =
        (R.slice x.2 rel (rel + min n unit) >>= fun out => .ok (out, cache')) := by
      unfold unitBytes
      rw [if_pos rfl, c1, R.ok_bind, c3]
      simp only [Fat.orErr, R.ok_bind]
      rw [hc.unit, hug]; rfl
    rw [hb] at hstart
    by_cases hfit : rel + min n unit ≤ unit
    · left
      rw [R.slice_ok (Nat.le_add_right _ _) (by rw [hsnd x hxm]; exact hfit), R.ok_bind, Nat.add_sub_cancel_left] at hstart
      have hol : ((x.2.drop rel).take (min n unit)).length = min n unit := by rw [List.length_take, List.length_drop, hsnd x hxm]; omega
      refine ⟨_, _, hstart, c2, fun e => by rw [e] at hol; simp only [List.length_nil] at hol; omega, ?_, fun hlt => ?_, fun _ _ => hfit⟩
      · refine Blocks.prefix_of_bytes (by omega) (by omega) fun i hi => ?_
        rw [hol] at hi
        rw [List.getElem?_take_of_lt hi, List.getElem?_drop, List.getElem?_take_of_lt (by omega), show pos + i = j0 * unit + (rel + i) by omega,
          flatMap_uniform hsnd (by omega), hx]; rfl
      · rw [hol] at hlt ⊢
        have hz : rel = 0 := by omega
        rw [← hdm, hz, Nat.add_zero, Nat.min_eq_right (by omega), ← Nat.succ_mul]
        exact Nat.mul_mod_left _ _
    · right
      refine ⟨?_, hcut, by omega⟩
      rw [hstart]
      have : R.slice x.2 rel (rel + min n unit) = .panic := by
        unfold R.slice
        rw [if_neg (by rw [hsnd x hxm]; omega)]
      rw [this]; rfl
  | false =>
    left
    have hdir := m2 rfl
    generalize hrem : min n (min ((j0 + m) * unit) valid - j0 * unit - (pos - j0 * unit)) = w
    have hw0 : 0 < w := by omega
    have hwn : w ≤ n := by omega
    have hwe : pos + w ≤ (j0 + m) * unit := by omega
    have hb : unitBytes U bs c cache ⟨j0 * unit, m * unit, false⟩ pos (pos - j0 * unit) (min ((j0 + m) * unit) valid - j0 * unit - (pos - j0 * unit)) n =
        .ok (((rawUnits U bs units).drop pos).take w, cache) := by
      unfold unitBytes
      rw [if_neg (by simp), hrem, hc.read _ _ hw0 (by rw [hug]; omega), R.ok_bind]; rfl
    rw [hb] at hstart
    have hrl : (rawUnits U bs units).length = units.length * unit := flatMap_uniform_length hr
    have hol : (((rawUnits U bs units).drop pos).take w).length = w := by rw [List.length_take, List.length_drop, hrl]; omega
    refine ⟨_, _, hstart, h, fun e => by rw [e] at hol; simp only [List.length_nil] at hol; omega, ?_, fun hlt => ?_, fun h1 h2 => ?_⟩
    · refine Blocks.prefix_of_bytes (by omega) (by omega) fun i hi => ?_
      rw [hol] at hi
      rw [List.getElem?_take_of_lt hi, List.getElem?_drop, List.getElem?_take_of_lt (by omega)]
      have hdm' := Nat.div_add_mod (pos + i) unit
      have hml' := Nat.mod_lt (pos + i) hunit
      rw [Nat.mul_comm] at hdm'
      generalize hj' : (pos + i) / unit = j' at *
      rw [← hdm']
      unfold rawUnits
      rw [flatMap_uniform hr hml', flatMap_uniform hsnd hml']
      have hlo : j0 ≤ j' := by
        rw [← hj', Nat.le_div_iff_mul_le hunit]; omega
      have hhi : j' < j0 + m := by
        rw [← hj', Nat.div_lt_iff_lt_mul hunit]; omega
      have hd := hdir (j' - j0) (by omega)
      rw [show j0 + (j' - j0) = j' by omega] at hd
      unfold cutOf at hd
      have hj'N : j' < units.length := by omega
      rw [List.getElem?_eq_getElem hj'N] at hd ⊢
      have hym := List.getElem_mem hj'N
      have := (hk _ hym).same (by rw [hw _ hym]; exact hd)
      simp only [Option.bind_some]
      rw [this]
    · rw [hol] at hlt ⊢
      rw [show pos + w = (j0 + m) * unit by omega]
      exact Nat.mul_mod_left _ _
    · have := hdir (j - j0) (by omega)
      rw [show j0 + (j - j0) = j by omega] at this
      omega

end

end Keramics.NtfsFs
