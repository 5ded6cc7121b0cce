import Verif.Lemmas.Bzip2

/-! # bzip2: streams exist, and streams that are not decoded -/

namespace Keramics.Bzip2
open Keramics.Spec.Bzip2 Keramics.Spec.Huffman Keramics.Spec.Bwt Keramics.Huffman

theorem exists_bytes (bs : List Bool) : ∃ (data : List Byte) (pad : List Bool), pad.length < 8 ∧ byteBits data = bs ++ pad := by
  generalize hn : bs.length = n
  induction n using Nat.strong_induction_on generalizing bs with
  | _ n ih =>
    have key : ∀ b8 : List Bool, b8.length = 8 → ∃ c : Byte, bits 8 c.toNat = b8 := by
      intro b8 h8
      obtain ⟨v, hv, e⟩ := exists_bits b8
      rw [h8] at hv e
      exact ⟨BitVec.ofNat 8 v, by rw [BitVec.toNat_ofNat, Nat.mod_eq_of_lt hv, e]⟩
    by_cases h0 : n = 0
    · refine ⟨[], [], by simp, ?_⟩
      rw [List.length_eq_zero_iff.1 (hn.trans h0)]
      rfl
    · by_cases h8 : n < 8
      · obtain ⟨c, hc⟩ := key (bs ++ List.replicate (8 - n) false) (by simp; omega)
        exact ⟨[c], List.replicate (8 - n) false, by simp; omega, by simp [byteBits, hc]⟩
      · obtain ⟨c, hc⟩ := key (bs.take 8) (by simp; omega)
        obtain ⟨data, pad, hp, e⟩ := ih (n - 8) (by omega) (bs.drop 8) (by simp; omega)
        refine ⟨c :: data, pad, hp, ?_⟩
        have : byteBits (c :: data) = bits 8 c.toNat ++ byteBits data := rfl
        rw [this, e, hc, ← List.append_assoc, List.take_append_drop]

theorem exists_stream (level : Nat) (h1 : 1 ≤ level) (h9 : level ≤ 9) (blocks : List Spec.Bzip2.Block) (checksum : Nat) :
    ∃ data, IsStream data blocks checksum ∧ data[3]? = some (BitVec.ofNat 8 (0x30 + level)) := by
  obtain ⟨data, pad, hp, e⟩ := exists_bytes (blocks.flatMap Spec.Bzip2.Block.bits ++ endBits checksum)
  exact ⟨[0x42#8, 0x5a#8, 0x68#8, BitVec.ofNat 8 (0x30 + level)] ++ data, ⟨⟨level, h1, h9, rfl⟩, pad, hp, e⟩, rfl⟩

theorem digits_length_le (n : Nat) : (digits n).length ≤ n := by
  induction n using Nat.strong_induction_on with
  | _ n ih =>
    rw [digits]
    split
    · simp
    · split
      · have := ih ((n - 1) / 2) (by omega)
        rw [List.length_cons]; omega
      · have := ih ((n - 2) / 2) (by omega)
        rw [List.length_cons]; omega

theorem symbolsAfter_length (ps : List Nat) : ∀ n, (symbolsAfter n ps).length ≤ n + ps.length := by
  induction ps with
  | nil => intro n; simpa [symbolsAfter] using digits_length_le n
  | cons p ps ih =>
    intro n
    cases p with
    | zero => rw [symbolsAfter]; have := ih (n + 1); rw [List.length_cons]; omega
    | succ k =>
      rw [symbolsAfter, List.length_append, List.length_cons, List.length_cons]
      have := ih 0
      have := digits_length_le n
      omega

theorem mtf_length {α : Type} [DecidableEq α] (xs : List α) : ∀ stack : List α, (mtf stack xs).length = xs.length := by
  induction xs with
  | nil => intro; rfl
  | cons x xs ih => intro stack; rw [mtf, List.length_cons, List.length_cons, ih]

/-- The bytes of a list. -/
def usedIn (block : List Byte) (n : Nat) : Bool := block.any fun c => c.toNat == n

/-- Every runs have a block with any trees. -/
theorem exists_block (runs : List (Byte × Nat)) (hv : ValidRuns runs) (hne : runs ≠ []) (hlen : (stored runs).length ≤ 900000) (checksum : Nat) (hc : checksum < 2 ^ 32)
    (trees : List (Nat × List Nat)) (ht : 2 ≤ trees.length ∧ trees.length ≤ 6) :
    ∃ b : Spec.Bzip2.Block, b.Tables ∧ b.Encodes runs ∧ b.checksum = checksum ∧ b.trees = trees ∧ b.used = usedIn (stored runs) := by
  have hs : stored runs ≠ [] := by
    cases runs with
    | nil => exact absurd rfl hne
    | cons r rest =>
      obtain ⟨r1, -⟩ := hv
      unfold stored storedRun
      rw [List.flatMap_cons]
      intro e
      have e := (List.append_eq_nil_iff.1 e).1
      split at e
      · rw [List.replicate_eq_nil_iff] at e; omega
      · simp at e
  obtain ⟨last, origin, htr, hl⟩ := transform_exists (stored runs) hs
  refine ⟨⟨checksum, origin, usedIn (stored runs), trees, List.replicate ((symbolsOf (usedIn (stored runs)) last).length / 50 + 1) 0, symbolsOf (usedIn (stored runs)) last⟩,
    ⟨hc, Nat.lt_of_lt_of_le (transform_origin htr) hlen, ht, ?_, ?_⟩, ⟨hv, ?_, last, htr, rfl⟩, rfl, rfl, rfl⟩
  · have : (symbolsOf (usedIn (stored runs)) last).length ≤ last.length + 1 := by
      unfold symbolsOf
      have := symbolsAfter_length (mtf (usedBytes (usedIn (stored runs))) last) 0
      rw [mtf_length] at this
      rw [List.length_append, List.length_cons, List.length_nil]
      omega
    simp only [List.length_replicate]
    omega
  · intro t h
    have := List.eq_of_mem_replicate h
    simp only at *
    omega
  · intro c h
    simp only [usedIn, List.any_eq_true, beq_iff_eq]
    exact ⟨c, h, rfl⟩

theorem usedBytes_pos {runs : List (Byte × Nat)} {b : Spec.Bzip2.Block} (he : b.Encodes runs) : 1 ≤ (usedBytes b.used).length := by
  obtain ⟨-, hu, last, htr, -⟩ := he
  obtain ⟨-, t2, t3⟩ := transform_mem htr
  cases hl : last with
  | nil => exact absurd hl t2
  | cons a l => exact List.length_pos_of_mem (mem_usedBytes (hu a (t3 a (by simp [hl]))))

/-- The code lengths of a complete code of about equal lengths. -/
def evenLens (n : Nat) : List Nat := List.replicate (2 ^ (Nat.log2 n + 1) - n) (Nat.log2 n) ++ List.replicate (2 * (n - 2 ^ Nat.log2 n)) (Nat.log2 n + 1)

theorem evenLens_ok {n : Nat} (h1 : 3 ≤ n) (h2 : n ≤ 258) : Complete 19 n (evenLens n) := by
  have : ∀ n : Fin 256, (evenLens (n.val + 3)).length = n.val + 3 ∧ (∀ l ∈ evenLens (n.val + 3), 1 ≤ l ∧ l ≤ 19) ∧
      ((evenLens (n.val + 3)).map fun l => 2 ^ (19 - l)).sum = 2 ^ 19 := by decide +kernel
  have := this ⟨n - 3, by omega⟩
  simp only [show n - 3 + 3 = n by omega] at this
  exact this

/-- Every runs have a block. -/
theorem exists_readable (runs : List (Byte × Nat)) (hv : ValidRuns runs) (hne : runs ≠ []) (hlen : (stored runs).length ≤ 900000) (checksum : Nat) (hc : checksum < 2 ^ 32) :
    ∃ b : Spec.Bzip2.Block, b.Tables ∧ b.Encodes runs ∧ b.checksum = checksum ∧ b.Trees 19 := by
  have hu := usedBytes_length (usedIn (stored runs))
  obtain ⟨b, h1, h2, h3, h4, h5⟩ := exists_block runs hv hne hlen checksum hc
    (List.replicate 2 (1, evenLens ((usedBytes (usedIn (stored runs))).length + 2))) (by simp)
  refine ⟨b, h1, h2, h3, ?_⟩
  have := usedBytes_pos h2
  rw [h5] at this
  intro t ht
  rw [h4] at ht
  rw [List.eq_of_mem_replicate ht, h5]
  exact ⟨by simp, evenLens_ok (by omega) (by omega)⟩

/-! ## What is not decoded -/

theorem decodeBlock_long {data : List Byte} {b : Spec.Bzip2.Block} (ht : b.Tables) (hw : b.Trees 19) {runs : List (Byte × Nat)} (he : b.Encodes runs)
    (h1 : 100000 < (stored runs).length) (h2 : (stored runs).length ≤ 900000) {st : State} (hs : Sizes st) {s : Bs} {rest : List Bool}
    (h : At data s (b.tablesBits ++ (b.trees.flatMap treeBits ++ (codedBits b.trees b.selectors 0 b.symbols ++ rest)))) :
    decodeBlock data b.origin st s = .err := by
  by_cases ho : b.origin < 100000
  · obtain ⟨hv, hu, last, htr, hsym⟩ := he
    obtain ⟨t1, t2, t3⟩ := transform_mem htr
    obtain ⟨stack, s', h', hst, e⟩ := decodeBlock_last ht ho hw t2 (fun c hc => mem_usedBytes (hu c (t3 c hc))) (by omega) hsym hs h
    rw [e, if_neg]
    show ¬ last.length ≤ 100000
    omega
  · unfold decodeBlock
    rw [R.require_false (show ¬ b.origin < blockSize from ho)]
    rfl

theorem decodeBlock_tree {data : List Byte} {b : Spec.Bzip2.Block} (ht : b.Tables) (ho : b.origin < 100000) {st : State} (hs : Sizes st) {s : Bs} {rest : List Bool}
    {t : Nat × List Nat} {more : List (Nat × List Nat)} (hb : b.trees = t :: more) (h : At data s (b.tablesBits ++ (b.trees.flatMap treeBits ++ rest))) :
    ∃ s', At data s' (treeBits t ++ (more.flatMap treeBits ++ rest)) ∧
      (readTree data ((usedBytes b.used).length + 2) s' = .err → decodeBlock data b.origin st s = .err) ∧
      (readTree data ((usedBytes b.used).length + 2) s' = .panic → decodeBlock data b.origin st s = .panic) := by
  obtain ⟨s1, h1, e1⟩ := decodeBlock_tables ht ho hs h
  rw [hb, List.flatMap_cons, List.append_assoc] at h1
  refine ⟨s1, h1, fun e => ?_, fun e => ?_⟩
  · rw [e1, hb, List.length_cons, readTrees, e]
    rfl
  · rw [e1, hb, List.length_cons, readTrees, e]
    rfl

theorem runSymbols_many {last : Nat} (hlast : 1 < last) {x : Nat} {rest : List Nat} (ds : List Nat) : ∀ b : Block, (∀ d ∈ ds, d ≤ 1) → b.runs + ds.length = 64 →
    runSymbols last (ds ++ x :: rest) b = .panic := by
  induction ds with
  | nil =>
    intro b _ hb
    rw [List.length_nil, Nat.add_zero] at hb
    rw [List.nil_append, runSymbols]
    unfold endRun
    by_cases hx : 1 < x
    · rw [if_pos ⟨by omega, hx⟩]
      unfold flush
      rw [R.check_false (by omega)]
      rfl
    · rw [if_neg (by omega), R.ok_bind, if_neg (by omega)]
      unfold put
      rw [if_pos (by omega), R.check_false (by omega)]
      rfl
  | cons d ds ih =>
    intro b hd hb
    rw [List.length_cons] at hb
    have h1 := hd d (by simp)
    rw [List.cons_append, runSymbols]
    unfold endRun
    rw [if_neg (by omega), R.ok_bind, if_neg (by omega)]
    unfold put
    rw [if_pos (by omega), R.check_true (by omega), R.ok_bind]
    exact ih _ (fun e he => hd e (by simp [he])) (by simp only; omega)

end Keramics.Bzip2
