import Verif.Lemmas.Bzip2Trees

/-! # The symbols of a bzip2 block -/

namespace Keramics.Bzip2
open Keramics.Spec.Bzip2 Keramics.Spec.Huffman Keramics.Huffman

/-- What symbols, without the bits they are read from, do. -/
def runSymbols (last : Nat) : List Nat → Block → R Block
  | [], b => .ok b
  | symbol :: rest, b => endRun b symbol >>= fun b => if symbol = last then .ok b else put last b symbol >>= fun b => runSymbols last rest b

theorem nextTree_ok {sel : List Nat} {extra : List Byte} (hsel : ∀ t ∈ sel, t < 256) {index : Nat} (h : (index + 1) / 50 < sel.length) :
    nextTree (treeBytes sel ++ extra) sel.length (index + 1) (sel.getD (index / 50) 0) = .ok (sel.getD ((index + 1) / 50) 0) := by
  unfold nextTree
  by_cases h0 : (index + 1) % 50 = 0
  · rw [if_pos h0, R.require_true (by omega), R.ok_bind, R.get_ok (by simp [treeBytes]; omega), R.ok_bind]
    have hlt := hsel (sel[(index + 1) / 50]) (List.getElem_mem _)
    rw [List.getElem_append_left (by simpa [treeBytes] using h)]
    simp only [treeBytes, List.getElem_map, BitVec.toNat_ofNat, R.pure_eq, R.ok.injEq]
    rw [Nat.mod_eq_of_lt hlt, List.getD_eq_getElem?_getD, List.getElem?_eq_getElem h]
    rfl
  · rw [if_neg h0, show (index + 1) / 50 = index / 50 by omega]

theorem blockLoop_ok {data : List Byte} {ts : List Huffman.Tree} {trees : List (Nat × List Nat)} (ht : List.Forall₂ (fun t l => IsTree t l.2) ts trees)
    {sel : List Nat} (hsel : ∀ t ∈ sel, t < trees.length) (h256 : trees.length ≤ 256) (extra : List Byte) {last : Nat} (init : List Nat) :
    ∀ (index fuel : Nat) (b : Block) (s : Bs) (rest : List Bool), last ∉ init → (∀ x ∈ init ++ [last], ∀ t ∈ trees, Coded t.2 x) →
      index + init.length < 50 * sel.length → init.length < fuel → At data s (codedBits trees sel index (init ++ [last]) ++ rest) →
      ∃ s', At data s' rest ∧ blockLoop data ts trees.length (treeBytes sel ++ extra) sel.length last fuel index (sel.getD (index / 50) 0) b s =
        runSymbols last (init ++ [last]) b >>= fun b => .ok (b, s') := by
  have hlen : ts.length = trees.length := ht.length_eq
  have key : ∀ (index symbol : Nat) (s : Bs) (rest : List Bool), index < 50 * sel.length → (∀ t ∈ trees, Coded t.2 symbol) →
      At data s (codeBits (trees.getD (sel.getD (index / 50) 0) (0, [])).2 symbol ++ rest) → ∃ t s', sel.getD (index / 50) 0 < trees.length ∧
        R.get ts (sel.getD (index / 50) 0) = .ok t ∧ decodeSymbol (getValue data 1) t s = .ok (symbol, s') ∧ At data s' rest := by
    intro index symbol s rest hi hc h
    have hi' : index / 50 < sel.length := by omega
    have e : sel.getD (index / 50) 0 = sel[index / 50] := by simp [List.getD_eq_getElem?_getD, hi']
    rw [e] at h ⊢
    have hlt := hsel _ (List.getElem_mem hi')
    generalize sel[index / 50] = k at *
    have hk : k < ts.length := by omega
    have et : trees.getD k (0, []) = trees[k] := by simp [List.getD_eq_getElem?_getD, hlt]
    rw [et] at h
    obtain ⟨s', hr, h'⟩ := reads_ok _ h
    have := ht.get hk hlt
    exact ⟨ts[k], s', hlt, R.get_ok hk, decode_ok _ this (hc _ (List.getElem_mem hlt)) hr, h'⟩
  induction init with
  | nil =>
    intro index fuel b s rest _ hc hi hf h
    obtain ⟨fuel, rfl⟩ : ∃ f, fuel = f + 1 := ⟨fuel - 1, by omega⟩
    simp only [List.nil_append, codedBits, List.append_nil] at h
    obtain ⟨t, s', k1, k2, k3, k4⟩ := key index last s rest (by simpa using hi) (hc last (by simp)) h
    refine ⟨s', k4, ?_⟩
    unfold blockLoop
    rw [R.require_true k1, R.ok_bind, k2, R.ok_bind, k3, R.ok_bind]
    simp only [List.nil_append, runSymbols, if_true]
    cases endRun b last <;> rfl
  | cons x init ih =>
    intro index fuel b s rest hl hc hi hf h
    simp only [List.length_cons] at hi hf
    obtain ⟨fuel, rfl⟩ : ∃ f, fuel = f + 1 := ⟨fuel - 1, by omega⟩
    simp only [List.cons_append, codedBits, List.append_assoc] at h
    obtain ⟨t, s1, k1, k2, k3, k4⟩ := key index x s _ (by omega) (hc x (by simp)) h
    have hx : x ≠ last := fun e => hl (by simp [e])
    have hnext := nextTree_ok (extra := extra) (fun t h => Nat.lt_of_lt_of_le (hsel t h) h256) (index := index) (by omega)
    have hstep : ∀ b', ∃ s', At data s' rest ∧ blockLoop data ts trees.length (treeBytes sel ++ extra) sel.length last fuel (index + 1) (sel.getD ((index + 1) / 50) 0) b' s1 =
        runSymbols last (init ++ [last]) b' >>= fun b => .ok (b, s') := fun b' =>
      ih (index + 1) fuel b' s1 rest (fun h' => hl (by simp [h'])) (fun y hy => hc y (by simp at hy ⊢; tauto)) (by omega) (by omega) k4
    unfold blockLoop
    simp only [k1, R.require_true, R.ok_bind, k2, k3, List.cons_append, runSymbols, if_neg hx]
    cases endRun b x with
    | err => obtain ⟨s', h', -⟩ := hstep b; exact ⟨s', h', rfl⟩
    | panic => obtain ⟨s', h', -⟩ := hstep b; exact ⟨s', h', rfl⟩
    | ok b1 =>
      simp only [R.ok_bind]
      cases put last b1 x with
      | err => obtain ⟨s', h', -⟩ := hstep b; exact ⟨s', h', rfl⟩
      | panic => obtain ⟨s', h', -⟩ := hstep b; exact ⟨s', h', rfl⟩
      | ok b2 =>
        simp only [R.ok_bind, hnext]
        exact hstep b2

/-! ## Runs of zeros -/

theorem digits_zero : digits 0 = [] := by unfold digits; simp

theorem digits_odd (n : Nat) : digits (2 * n + 1) = 0 :: digits n := by
  rw [digits, dif_neg (by omega), if_pos (by omega), show (2 * n + 1 - 1) / 2 = n by omega]

theorem digits_even (n : Nat) : digits (2 * n + 2) = 1 :: digits n := by
  rw [digits, dif_neg (by omega), if_neg (by omega), show (2 * n + 2 - 2) / 2 = n by omega]

theorem digits_pow (n : Nat) : 2 ^ (digits n).length ≤ n + 1 := by
  induction n using Nat.strongRecOn with
  | _ n ih =>
    by_cases h0 : n = 0
    · subst h0; rw [digits_zero]; simp
    · rcases Nat.even_or_odd' n with ⟨k, rfl | rfl⟩
      · obtain ⟨k, rfl⟩ : ∃ j, k = j + 1 := ⟨k - 1, by omega⟩
        have := ih k (by omega)
        rw [show 2 * (k + 1) = 2 * k + 2 by omega, digits_even, List.length_cons, Nat.pow_succ]
        omega
      · have := ih k (by omega)
        rw [digits_odd, List.length_cons, Nat.pow_succ]
        omega

theorem put_run {last : Nat} {b : Block} {d : Nat} (hd : d < 2) (hr : b.runs < 64) (hv : b.value < 2 ^ b.runs) :
    put last b d = .ok { b with value := b.value + d * 2 ^ b.runs, runs := b.runs + 1 } := by
  unfold put
  rw [if_pos (by omega), R.check_true hr, R.ok_bind]
  have h64 : d <<< b.runs % 2 ^ 64 = d <<< b.runs := by
    rw [Nat.shiftLeft_eq, Nat.mod_eq_of_lt]
    calc d * 2 ^ b.runs ≤ 1 * 2 ^ b.runs := Nat.mul_le_mul_right _ (by omega)
      _ < 2 ^ 64 := by rw [Nat.one_mul]; exact Nat.pow_lt_pow_right (by omega) hr
  rw [h64, Nat.or_comm, shl_or hv, Nat.add_comm (d * 2 ^ b.runs)]
  rfl

theorem endRun_run {b : Block} {d : Nat} (hd : d < 2) : endRun b d = .ok b := by
  unfold endRun
  rw [if_neg (by omega)]

theorem runDigits {last : Nat} (hlast : 2 ≤ last) (n : Nat) : ∀ (b : Block) (rest : List Nat), b.value < 2 ^ b.runs → b.runs + (digits n).length ≤ 63 →
    ∃ value, value < 2 ^ (b.runs + (digits n).length) ∧ 2 ^ (b.runs + (digits n).length) + value = 2 ^ b.runs + b.value + 2 ^ b.runs * n ∧
      runSymbols last (digits n ++ rest) b = runSymbols last rest { b with runs := b.runs + (digits n).length, value := value } := by
  induction n using Nat.strongRecOn with
  | _ n ih =>
    intro b rest hv hr
    have step : ∀ (d k : Nat), d < 2 → n = 2 * k + d + 1 → ∃ value, value < 2 ^ (b.runs + (digits n).length) ∧
        2 ^ (b.runs + (digits n).length) + value = 2 ^ b.runs + b.value + 2 ^ b.runs * n ∧
        runSymbols last (digits n ++ rest) b = runSymbols last rest { b with runs := b.runs + (digits n).length, value := value } := by
      intro d k hd hn
      have e : digits n = d :: digits k := by
        have : d = 0 ∨ d = 1 := by omega
        rcases this with rfl | rfl
        · rw [hn, ← digits_odd]
        · rw [hn, ← digits_even]
      rw [e] at hr ⊢
      simp only [List.length_cons] at hr ⊢
      have hd1 : d * 2 ^ b.runs ≤ 2 ^ b.runs := by
        calc d * 2 ^ b.runs ≤ 1 * 2 ^ b.runs := Nat.mul_le_mul_right _ (by omega)
          _ = _ := Nat.one_mul _
      obtain ⟨value, v1, v2, v3⟩ := ih k (by omega) { b with value := b.value + d * 2 ^ b.runs, runs := b.runs + 1 } rest
        (by simp only; rw [Nat.pow_succ]; omega) (by simp only; omega)
      simp only at v1 v2 v3
      rw [show b.runs + 1 + (digits k).length = b.runs + ((digits k).length + 1) by omega] at v1 v2 v3
      refine ⟨value, v1, ?_, ?_⟩
      · rw [v2, hn, Nat.pow_succ]; ring
      · rw [List.cons_append]
        conv_lhs => unfold runSymbols
        rw [endRun_run hd, R.ok_bind, if_neg (by omega), put_run hd (by omega) hv, R.ok_bind]
        exact v3
    by_cases h0 : n = 0
    · subst h0
      rw [digits_zero]
      exact ⟨b.value, by simpa using hv, by simp, by simp⟩
    · rcases Nat.even_or_odd' n with ⟨k, hk | hk⟩
      · exact step 1 (k - 1) (by omega) (by omega)
      · exact step 0 k (by omega) (by omega)

/-- A run that ends: so many of the byte at the front of the stack, or an error when there is no place for them. -/
theorem endRun_digits {data : List Byte} {offset : Nat} (w : List Byte) {stack : List Byte} {x : Byte} {n runs value symbol : Nat} (hd : data.length = blockSize)
    (hw : offset + w.length ≤ blockSize) (hr : runs ≤ 63) (hv : value < 2 ^ runs) (h : 2 ^ runs + value = 1 + n) (hx : stack[0]? = some x) (hs : 1 < symbol) :
    endRun ⟨overwrite data offset w, offset + w.length, runs, value, stack⟩ symbol =
      if offset + w.length + n ≤ blockSize then .ok ⟨overwrite data offset (w ++ List.replicate n x), offset + w.length + n, 0, 0, stack⟩ else .err := by
  unfold endRun
  by_cases h0 : runs = 0
  · subst h0
    have hv0 : value = 0 := by simpa using hv
    have hn0 : n = 0 := by subst hv0; simp at h; omega
    subst hv0 hn0
    rw [if_neg (by simp), if_pos (by omega)]
    simp
  · rw [if_pos ⟨h0, hs⟩]
    unfold flush
    simp only
    have hor : 2 ^ runs ||| value = 1 + n := by
      have := shl_or (a := 1) hv
      rw [Nat.shiftLeft_eq, Nat.one_mul] at this
      omega
    rw [R.check_true (by omega), R.ok_bind, hor, R.subU_ok (by omega), R.ok_bind, R.subU_ok hw, R.ok_bind]
    by_cases hfit : offset + w.length + n ≤ blockSize
    · rw [if_pos hfit, R.require_true (by omega), R.ok_bind]
      have : R.get stack 0 = .ok x := by rw [R.get, hx]
      rw [this, R.ok_bind, show 1 + n - 1 = n by omega, repeat_ok n x w (by omega), R.ok_bind]
      rfl
    · rw [if_neg hfit, R.require_false (by omega), R.err_bind]

/-- The symbols of a list of bytes, after so many that are at the front of the stack, put these bytes into the block. -/
theorem runSymbols_mtf {data : List Byte} (hd : data.length = blockSize) {offset : Nat} (xs : List Byte) : ∀ (S : List Byte) (extra w : List Byte) (n : Nat) (x : Byte),
    S.head? = some x → (∀ c ∈ xs, c ∈ S) → offset + w.length ≤ blockSize → n + xs.length ≤ 900000 →
    ∃ stack, stack.length = (S ++ extra).length ∧
      runSymbols (S.length + 1) (symbolsAfter n (mtf S xs) ++ [S.length + 1]) ⟨overwrite data offset w, offset + w.length, 0, 0, S ++ extra⟩ =
        if offset + w.length + n + xs.length ≤ blockSize then
          .ok ⟨overwrite data offset (w ++ List.replicate n x ++ xs), offset + w.length + n + xs.length, 0, 0, stack⟩
        else .err := by
  induction xs with
  | nil =>
    intro S extra w n x hx _ hw hn
    have hS : 1 ≤ S.length := by cases S with
      | nil => simp at hx
      | cons => simp
    have hx0 : (S ++ extra)[0]? = some x := by
      cases S with
      | nil => simp at hx
      | cons a S => simpa using hx
    have hpow := digits_pow n
    have hlen : (digits n).length ≤ 63 := by
      by_contra hc
      have : 2 ^ 64 ≤ 2 ^ (digits n).length := Nat.pow_le_pow_right (by omega) (by omega)
      simp only [List.length_nil] at hn
      omega
    refine ⟨S ++ extra, rfl, ?_⟩
    simp only [mtf, symbolsAfter]
    obtain ⟨value, v1, v2, v3⟩ := runDigits (last := S.length + 1) (by omega) n ⟨overwrite data offset w, offset + w.length, 0, 0, S ++ extra⟩ [S.length + 1]
      (by simp) (by simpa using hlen)
    simp only [Nat.zero_add, Nat.pow_zero, Nat.one_mul, Nat.add_zero] at v1 v2 v3
    rw [v3]
    simp only [runSymbols]
    rw [endRun_digits w hd hw hlen v1 v2 hx0 (by omega)]
    simp only [List.length_nil, Nat.add_zero, List.append_nil, if_true]
    split <;> rfl
  | cons c xs ih =>
    intro S extra w n x hx hm hw hn
    have hcS := hm c (by simp)
    obtain ⟨p, q, e1, e2, e3⟩ := split_idxOf hcS
    simp only [List.length_cons] at hn
    have hperm : ∀ u ∈ S, u ∈ c :: S.erase c := by
      intro u hu
      by_cases huc : u = c
      · simp [huc]
      · exact List.mem_cons_of_mem _ ((List.mem_erase_of_ne huc).2 hu)
    have hlen' : (c :: S.erase c).length = S.length := by
      have : 0 < S.length := List.length_pos_of_mem hcS
      rw [List.length_cons, List.length_erase_of_mem hcS]; omega
    rw [mtf]
    by_cases hp : p = []
    · -- the byte is at the front
      subst hp
      simp only [List.length_nil] at e2
      rw [← e2]
      have hcx : c = x := by rw [e1] at hx; simpa using hx
      have hSe : c :: S.erase c = S := by rw [e3]; exact e1.symm
      rw [hSe, symbolsAfter]
      obtain ⟨stack, h1, h2⟩ := ih S extra w (n + 1) x hx (fun d hd' => hm d (by simp [hd'])) hw (by omega)
      refine ⟨stack, h1, ?_⟩
      rw [h2]
      simp only [List.length_cons]
      rw [show offset + w.length + (n + 1) + xs.length = offset + w.length + n + (xs.length + 1) by omega]
      congr 3
      rw [List.replicate_succ', hcx]
      simp
    · obtain ⟨k, hk⟩ : ∃ k, p.length = k + 1 := ⟨p.length - 1, by
        have : 0 < p.length := List.length_pos_iff.2 hp
        omega⟩
      have hkS : k + 2 < S.length + 1 := by
        have := congrArg List.length e1
        simp at this
        omega
      have hx0 : (S ++ extra)[0]? = some x := by
        cases S with
        | nil => simp at hx
        | cons a S => simpa using hx
      have hpow := digits_pow n
      have hlen : (digits n).length ≤ 63 := by
        by_contra hc
        have : 2 ^ 64 ≤ 2 ^ (digits n).length := Nat.pow_le_pow_right (by omega) (by omega)
        omega
      rw [← e2, hk, symbolsAfter, List.append_assoc]
      obtain ⟨value, v1, v2, v3⟩ := runDigits (last := S.length + 1) (by omega) n ⟨overwrite data offset w, offset + w.length, 0, 0, S ++ extra⟩
        ((k + 2) :: symbolsAfter 0 (mtf (c :: S.erase c) xs) ++ [S.length + 1]) (by simp) (by simpa using hlen)
      simp only [Nat.zero_add, Nat.pow_zero, Nat.one_mul, Nat.add_zero] at v1 v2 v3
      rw [v3, List.cons_append]
      simp only [runSymbols]
      rw [endRun_digits w hd hw hlen v1 v2 hx0 (by omega)]
      simp only [show ¬ k + 2 = S.length + 1 by omega, if_false]
      have hstack : moveToFront (S ++ extra) (k + 1) = .ok (c, (c :: S.erase c) ++ extra) := by
        have := moveToFront_ok p c (q ++ extra)
        rw [hk] at this
        rw [show S ++ extra = p ++ c :: (q ++ extra) by conv_lhs => rw [e1]; simp]
        rw [this, e3]
        simp
      by_cases hfit : offset + w.length + n < blockSize
      · have hl1 : offset + w.length + n = offset + (w ++ List.replicate n x).length := by simp; omega
        have hl2 : offset + w.length + n + 1 = offset + (w ++ List.replicate n x ++ [c]).length := by simp; omega
        obtain ⟨stack, h1, h2⟩ := ih (c :: S.erase c) extra (w ++ List.replicate n x ++ [c]) 0 c rfl (fun d hd' => hperm d (hm d (by simp [hd'])))
          (by omega) (by omega)
        refine ⟨stack, by rw [h1]; simp only [List.length_append, hlen'], ?_⟩
        rw [if_pos (by omega), R.ok_bind]
        have hput : put (S.length + 1) ⟨overwrite data offset (w ++ List.replicate n x), offset + w.length + n, 0, 0, S ++ extra⟩ (k + 2) =
            .ok ⟨overwrite data offset (w ++ List.replicate n x ++ [c]), offset + w.length + n + 1, 0, 0, c :: S.erase c ++ extra⟩ := by
          unfold put
          rw [if_neg (by omega), if_pos (by omega)]
          simp only
          rw [show k + 2 - 1 = k + 1 by omega, hstack, R.ok_bind]
          simp only
          rw [R.require_true hfit, R.ok_bind, hl1, overwrite_set c (by omega), R.ok_bind]
          rfl
        rw [hput, R.ok_bind, hl2, hlen'.symm, h2, ← hl2]
        simp only [List.length_cons, List.replicate_zero, List.append_nil, List.append_assoc, List.singleton_append, Nat.add_zero]
        rw [show offset + w.length + n + 1 + xs.length = offset + w.length + n + (xs.length + 1) by omega]
      · refine ⟨S ++ extra, rfl, ?_⟩
        rw [if_neg (show ¬ offset + w.length + n + (c :: xs).length ≤ blockSize by simp only [List.length_cons]; omega)]
        by_cases hfit' : offset + w.length + n ≤ blockSize
        · rw [if_pos hfit', R.ok_bind]
          unfold put
          rw [if_neg (by omega), if_pos (by omega)]
          simp only
          rw [show k + 2 - 1 = k + 1 by omega, hstack, R.ok_bind]
          simp only
          rw [R.require_false hfit, R.err_bind, R.err_bind]
        · rw [if_neg hfit', R.err_bind]

end Keramics.Bzip2
