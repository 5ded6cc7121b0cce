import Verif.Lemmas.Lz
import Verif.Lemmas.LzfseTables

/-! # The literals and steps of a coded LZFSE block -/

namespace Keramics.Lzfse
open Keramics.Spec.Lzfse
open Keramics.Spec.Huffman (bits)
open Keramics.Bzip2 (bits_length bits_add bits_mod bits_join bits_inj bits_zero)
open Keramics.Spec (Lz.run Lz.Ok Lz.Op.run Lz.Op.ok Lz.copy)

theorem literal_ok {data : List Byte} {freqs : List Nat} (h : freqs.sum ≤ 1024) {t : List Entry}
    (ht : entries 1024 0 0 freqs = .ok t) {x : Byte} {s : Nat} (hx : Has freqs x.toNat) (hs : s < 1024)
    {b : Bs} {r : List Bool} (hi : Inv data b) (hr : rem data b = stateBits 1024 freqs x.toNat s ++ r) :
    ∃ b', literal data t (state 1024 freqs x.toNat s) b = .ok (x, s, b') ∧ Inv data b' ∧ rem data b' = r := by
  obtain ⟨_, delta, e1, e2, e3⟩ := state_entry (n := 10) (by omega) h ht hx hs
  simp only [show 2 ^ 10 = 1024 from rfl] at e1 e2 e3
  unfold stateBits at hr
  rw [← bits_mod _ _ _ (Nat.le_refl _)] at hr
  obtain ⟨b', g1, g2, g3⟩ := getValue_ok (by omega) hi (Nat.mod_lt _ (Nat.two_pow_pos _)) hr
  refine ⟨b', ?_, g2, g3⟩
  unfold literal
  rw [e1]
  simp only [g1]
  rw [e2, Nat.mod_eq_of_lt (by omega)]
  simp

theorem codeLiterals_below {freqs : List Nat} (h : freqs.sum ≤ 1024) {last : Four} (hl : last.Below 1024) (xs : List Byte)
    (hx : ∀ x ∈ xs, Has freqs x.toNat) : (codeLiterals freqs last xs).1.Below 1024 := by
  induction xs with
  | nil => exact hl
  | cons x xs ih =>
    obtain ⟨h1, h2, h3, h4⟩ := ih (fun y hy => hx y (List.mem_cons_of_mem _ hy))
    obtain ⟨t, ht, _⟩ := entries_ok (n := 10) (by omega) freqs 0 0 (by omega)
    exact ⟨(state_entry (n := 10) (by omega) h ht (hx x List.mem_cons_self) h4).1, h1, h2, h3⟩

theorem readLiterals_ok {data : List Byte} {freqs : List Nat} (h : freqs.sum ≤ 1024) {t : List Entry}
    (ht : entries 1024 0 0 freqs = .ok t) {last : Four} (hl : last.Below 1024) (turns : Nat) (xs : List Byte)
    (hn : xs.length = 4 * turns) (hx : ∀ x ∈ xs, Has freqs x.toNat) {b : Bs} {r : List Bool} (hi : Inv data b)
    (hr : rem data b = (codeLiterals freqs last xs).2 ++ r) :
    readLiterals data t turns (codeLiterals freqs last xs).1.a (codeLiterals freqs last xs).1.b
      (codeLiterals freqs last xs).1.c (codeLiterals freqs last xs).1.d b = .ok xs := by
  induction turns generalizing xs b with
  | zero =>
    have : xs = [] := List.eq_nil_of_length_eq_zero (by omega)
    subst this
    rfl
  | succ turns ih =>
    match xs, hn with
    | x0 :: x1 :: x2 :: x3 :: xs, hn =>
      have hx' : ∀ x ∈ xs, Has freqs x.toNat := fun y hy => hx y (by simp [hy])
      obtain ⟨b0, b1, b2, b3⟩ := codeLiterals_below h hl xs hx'
      simp only [codeLiterals] at hr ⊢
      generalize hc : codeLiterals freqs last xs = c at *
      simp only [List.append_assoc] at hr
      unfold readLiterals
      obtain ⟨s0, e0, i0, r0⟩ := literal_ok h ht (hx x0 (by simp)) b0 hi hr
      obtain ⟨s1, e1, i1, r1⟩ := literal_ok h ht (hx x1 (by simp)) b1 i0 r0
      obtain ⟨s2, e2, i2, r2⟩ := literal_ok h ht (hx x2 (by simp)) b2 i1 r1
      obtain ⟨s3, e3, i3, r3⟩ := literal_ok h ht (hx x3 (by simp)) b3 i2 r2
      have := ih xs (by simp at hn; omega) hx' i3 (by rw [hc]; exact r3)
      rw [hc] at this
      rw [e0, R.ok_bind]; simp only
      rw [e1, R.ok_bind]; simp only
      rw [e2, R.ok_bind]; simp only
      rw [e3, R.ok_bind]; simp only
      rw [this]; rfl

/-- A value of one of the three codes. -/
theorem lmdValue_ok {data : List Byte} {n : Nat} {freqs valueBits valueBase : List Nat} {extra : Nat → Nat}
    (hn : n ≤ 8) (h : freqs.sum ≤ 2 ^ n) {t : List ValueEntry}
    (hb : ∀ x, x < freqs.length → valueBits.getD x 0 = extra x ∧ valueBase.getD x 0 = base extra x ∧ extra x ≤ 16)
    (ht : buildValueTable (2 ^ n) freqs valueBits valueBase = .ok t) {v : Value} {s : Nat} (hv : v.Ok extra freqs)
    (hs : s < 2 ^ n) {b : Bs} {r : List Bool} (hi : Inv data b) (hr : rem data b = v.bits (2 ^ n) extra freqs s ++ r) :
    ∃ b', lmdValue data t (state (2 ^ n) freqs v.symbol s) b = .ok (v.value extra, s, b') ∧ Inv data b' ∧ rem data b' = r := by
  obtain ⟨hx, he⟩ := hv
  obtain ⟨es, hes, ht⟩ := R.bind_eq_ok.1 ht
  have ht := R.ok.inj ht
  obtain ⟨_, delta, e1, e2, e3⟩ := state_entry (by omega) h hes hx hs
  obtain ⟨v1, v2, v3⟩ := hb _ hx.1
  unfold Value.bits stateBits at hr
  rw [← bits_mod (shift (freqs.getD v.symbol 0) (2 ^ n + s)) _ _ (Nat.le_refl _), ← bits_join he] at hr
  have hlt : (2 ^ n + s) % 2 ^ shift (freqs.getD v.symbol 0) (2 ^ n + s) * 2 ^ extra v.symbol + v.extra
      < 2 ^ (shift (freqs.getD v.symbol 0) (2 ^ n + s) + extra v.symbol) := by
    have h1 : (2 ^ n + s) % 2 ^ shift (freqs.getD v.symbol 0) (2 ^ n + s) < 2 ^ shift (freqs.getD v.symbol 0) (2 ^ n + s) :=
      Nat.mod_lt _ (Nat.two_pow_pos _)
    rw [Nat.pow_add]
    calc _ < (2 ^ n + s) % 2 ^ shift (freqs.getD v.symbol 0) (2 ^ n + s) * 2 ^ extra v.symbol + 2 ^ extra v.symbol := by omega
      _ = ((2 ^ n + s) % 2 ^ shift (freqs.getD v.symbol 0) (2 ^ n + s) + 1) * 2 ^ extra v.symbol := by rw [Nat.add_mul, Nat.one_mul]
      _ ≤ _ := Nat.mul_le_mul_right _ h1
  obtain ⟨b', g1, g2, g3⟩ := getValue_ok (by omega) hi hlt hr
  refine ⟨b', ?_, g2, g3⟩
  unfold lmdValue
  rw [← ht, List.getElem?_map, e1]
  simp only [Option.map_some, valueEntry, v1, v2, g1]
  rw [Nat.shiftRight_eq_div_pow, Nat.add_comm (_ * _) v.extra, Nat.add_mul_mod_self_right, Nat.mod_eq_of_lt he,
    Nat.add_mul_div_right _ _ (Nat.two_pow_pos _), Nat.div_eq_of_lt he, Nat.zero_add, e2]
  rfl

theorem lTable : ∀ x, x < 20 → lBits.getD x 0 = lExtra x ∧ lBase.getD x 0 = base lExtra x ∧ lExtra x ≤ 16 := by
  decide +kernel
theorem mTable : ∀ x, x < 20 → mBits.getD x 0 = mExtra x ∧ mBase.getD x 0 = base mExtra x ∧ mExtra x ≤ 16 := by
  decide +kernel
theorem dTable : ∀ x, x < 64 → dBits.getD x 0 = dExtra x ∧ dBase.getD x 0 = base dExtra x ∧ dExtra x ≤ 16 := by
  decide +kernel

theorem takeLiterals_eq {xs : List Byte} {i n : Nat} (h : i + n ≤ xs.length) : takeLiterals xs i n = (xs.drop i).take n := by
  unfold takeLiterals
  apply List.ext_getElem?
  intro j
  rw [List.getElem?_map, List.getElem?_take]
  by_cases hj : j < n
  · rw [List.getElem?_range hj, if_pos hj, List.getElem?_drop]
    simp only [Option.map_some, List.getD_eq_getElem?_getD]
    rw [List.getElem?_eq_getElem (by omega), Option.getD_some]
  · rw [if_neg hj, List.getElem?_eq_none (by simp; omega)]; rfl

theorem copyBlock_ok {xs out rest : List Byte} {active index l m : Nat} (hl : l ≤ 315) (hxs : index + l ≤ xs.length)
    (hmax : xs.length ≤ 40000) (hroom : l + m ≤ rest.length) (hbuf : out.length + rest.length < 2 ^ 31)
    (h1 : 1 ≤ active) (h2 : active ≤ out.length + l) :
    copyBlock xs (out ++ rest) out.length active index l m
      = .ok (Lz.copy active m (out ++ (xs.drop index).take l) ++ rest.drop (l + m), out.length + l + m) := by
  have hlen : ((xs.drop index).take l).length = l := by simp; omega
  unfold copyBlock maxLiterals
  rw [R.require_true (by simp only [List.length_append]; omega), R.ok_bind, takeLiterals_eq hxs]
  have hsp := Lz.splice_literal out rest ((xs.drop index).take l) (by omega)
  rw [hlen] at hsp
  rw [hsp, R.ok_bind]
  simp only
  have hrem : toSigned 32 ((((out ++ (xs.drop index).take l) ++ rest.drop l).length - (out.length + l)) % 2 ^ 32)
      = ((rest.length - l : Nat) : Int) := by
    rw [List.length_append, List.length_append, hlen, List.length_drop,
      show out.length + l + (rest.length - l) - (out.length + l) = rest.length - l by omega]
    unfold toSigned
    rw [Nat.mod_eq_of_lt (by omega), if_pos (by omega)]
  rw [hrem, R.require_true (by omega), R.ok_bind, R.require_true (by omega), R.ok_bind]
  have hcm := Lz.copyMatch_ok active m (out ++ (xs.drop index).take l) (rest.drop l) h1
    (by rw [List.length_append, hlen]; omega) (by rw [List.length_drop]; omega)
  rw [List.length_append, hlen] at hcm
  rw [hcm, R.ok_bind, List.drop_drop]
  rfl

/-- The tables of a block. -/
structure TablesOk (c : Coded) (t : Tables) : Prop where
  l : buildValueTable 64 c.lFreqs lBits lBase = .ok t.l
  m : buildValueTable 64 c.mFreqs mBits mBase = .ok t.m
  d : buildValueTable 256 c.dFreqs dBits dBase = .ok t.d
  literal : entries 1024 0 0 c.literalFreqs = .ok t.literal

theorem l_value_le {freqs : List Nat} (hf : freqs.length = 20) {v : Value} (h : v.Ok lExtra freqs) : v.value lExtra ≤ 315 := by
  have key : ∀ x, x < 20 → base lExtra x + 2 ^ lExtra x ≤ 316 := by decide +kernel
  have := key v.symbol (by have := h.1.1; omega)
  have := h.2
  unfold Value.value
  omega

theorem codeSteps_below {c : Coded} (h : c.Wf) (ts : List Step) (hts : ∀ t ∈ ts, t.Ok c) :
    (codeSteps c ts).1.l < 64 ∧ (codeSteps c ts).1.m < 64 ∧ (codeSteps c ts).1.d < 256 := by
  induction ts with
  | nil => exact h.stepEnd
  | cons t ts ih =>
    obtain ⟨h1, h2, h3⟩ := ih (fun y hy => hts y (List.mem_cons_of_mem _ hy))
    obtain ⟨hl, hm, hd⟩ := hts t List.mem_cons_self
    obtain ⟨_, tl, _⟩ := entries_ok (n := 6) (by omega) c.lFreqs 0 0 (by have := h.l.2.1; omega)
    obtain ⟨_, tm, _⟩ := entries_ok (n := 6) (by omega) c.mFreqs 0 0 (by have := h.m.2.1; omega)
    obtain ⟨_, td, _⟩ := entries_ok (n := 8) (by omega) c.dFreqs 0 0 (by have := h.d.2.1; omega)
    exact ⟨(state_entry (n := 6) (by omega) h.l.2.1 tl hl.1 h1).1, (state_entry (n := 6) (by omega) h.m.2.1 tm hm.1 h2).1,
      (state_entry (n := 8) (by omega) h.d.2.1 td hd.1 h3).1⟩

theorem lmdLoop_ok {data : List Byte} {c : Coded} (h : c.Wf) {t : Tables} (ht : TablesOk c t) (ts : List Step)
    (hts : ∀ t ∈ ts, t.Ok c) {index before : Nat} (hu : index + used ts ≤ c.literals.length)
    (out rest : List Byte) (hok : Lz.Ok out (ops (c.literals.drop index) before ts))
    (hroom : (Lz.run out (ops (c.literals.drop index) before ts)).length ≤ out.length + rest.length)
    (hbuf : out.length + rest.length < 2 ^ 31)
    {b : Bs} {r : List Bool} (hi : Inv data b) (hr : rem data b = (codeSteps c ts).2 ++ r) :
    lmdLoop data c.literals t ts.length
        ⟨out.length, before, index, (codeSteps c ts).1.l, (codeSteps c ts).1.m, (codeSteps c ts).1.d⟩ b (out ++ rest)
      = .ok (Lz.run out (ops (c.literals.drop index) before ts) ++
          rest.drop ((Lz.run out (ops (c.literals.drop index) before ts)).length - out.length),
          (Lz.run out (ops (c.literals.drop index) before ts)).length) := by
  induction ts generalizing index before out rest b with
  | nil => simp [lmdLoop, ops, Lz.run]
  | cons x ts ih =>
    have hts' : ∀ t ∈ ts, t.Ok c := fun y hy => hts y (List.mem_cons_of_mem _ hy)
    obtain ⟨hl, hm, hd⟩ := hts x List.mem_cons_self
    obtain ⟨b1, b2, b3⟩ := codeSteps_below h ts hts'
    have hl315 := l_value_le h.l.1 hl
    simp only [codeSteps] at hr ⊢
    simp only [used] at hu
    have hcount := h.count
    generalize hc : codeSteps c ts = z at *
    simp only [List.append_assoc] at hr
    obtain ⟨s1, e1, i1, r1⟩ := lmdValue_ok (n := 6) (by omega) h.l.2.1 (fun x hx => lTable x (by rw [h.l.1] at hx; exact hx)) ht.l hl b1 hi hr
    obtain ⟨s2, e2, i2, r2⟩ := lmdValue_ok (n := 6) (by omega) h.m.2.1 (fun x hx => mTable x (by rw [h.m.1] at hx; exact hx)) ht.m hm b2 i1 r1
    obtain ⟨s3, e3, i3, r3⟩ := lmdValue_ok (n := 8) (by omega) h.d.2.1 (fun x hx => dTable x (by rw [h.d.1] at hx; exact hx)) ht.d hd b3 i2 r2
    simp only [show 2 ^ 6 = 64 from rfl, show 2 ^ 8 = 256 from rfl] at e1 e2 e3
    rw [List.length_cons]
    unfold lmdLoop
    simp only
    rw [e1, R.ok_bind]; simp only
    rw [e2, R.ok_bind]; simp only
    rw [e3, R.ok_bind]; simp only
    simp only [ops, Lz.Ok, Lz.run, Lz.Op.run, Lz.Op.ok, List.drop_drop] at hok hroom ⊢
    obtain ⟨_, ⟨k1, k2⟩, hok⟩ := hok
    have ed : (if x.d.value dExtra = 0 then before else x.d.value dExtra) = activeDistance before (x.d.value dExtra) := by
      unfold activeDistance
      by_cases h0 : x.d.value dExtra = 0 <;> simp [h0]
    rw [ed] at hok hroom k1 k2 ⊢
    generalize activeDistance before (x.d.value dExtra) = d at *
    generalize hlv : x.l.value lExtra = l at *
    generalize hmv : x.m.value mExtra = m at *
    have hlen : ((c.literals.drop index).take l).length = l := by simp; omega
    have hmono := Lz.le_run (Lz.copy d m (out ++ List.take l (List.drop index c.literals))) (ops (List.drop (index + l) c.literals) d ts)
    rw [Lz.copy_length, List.length_append, hlen] at hmono
    rw [List.length_append, hlen] at k2
    rw [copyBlock_ok hl315 (by omega) h.count (by omega) hbuf k1 k2, R.ok_bind]
    simp only
    have := ih hts' (index := index + l) (before := d) (by omega) (Lz.copy d m (out ++ List.take l (List.drop index c.literals)))
      (rest.drop (l + m)) hok (by rw [Lz.copy_length, List.length_append, hlen, List.length_drop]; omega)
      (by rw [Lz.copy_length, List.length_append, hlen, List.length_drop]; omega) i3 r3
    rw [Lz.copy_length, List.length_append, hlen] at this
    rw [this, List.drop_drop]
    congr 3
    congr 1
    omega

end Keramics.Lzfse
