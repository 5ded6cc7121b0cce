import Verif.Lemmas.Bitstream
import Verif.Lemmas.Lz

/-! # C27 DEFLATE decoding implements RFC 1951 block semantics -/

namespace Keramics.Deflate
open Keramics.Spec.Deflate Keramics.Spec.Huffman Keramics.Huffman Keramics.Spec.Lz

/-! ## Tables -/

theorem lengthExtras_eq {i : Nat} (h : i < 29) : R.get lengthExtras i = .ok (lengthExtra i) := by
  have : ∀ i < 29, R.get lengthExtras i = .ok (lengthExtra i) := by decide +kernel
  exact this i h

theorem lengthBases_eq {i : Nat} (h : i < 29) : R.get lengthBases i = .ok (lengthBase i) := by
  have : ∀ i < 29, R.get lengthBases i = .ok (lengthBase i) := by decide +kernel
  exact this i h

theorem distanceExtras_eq {i : Nat} (h : i < 30) : R.get distanceExtras i = .ok (distanceExtra i) := by
  have : ∀ i < 30, R.get distanceExtras i = .ok (distanceExtra i) := by decide +kernel
  exact this i h

theorem distanceBases_eq {i : Nat} (h : i < 30) : R.get distanceBases i = .ok (distanceBase i) := by
  have : ∀ i < 30, R.get distanceBases i = .ok (distanceBase i) := by decide +kernel
  exact this i h

theorem lengthExtra_le {i : Nat} (h : i < 29) : lengthExtra i ≤ 32 := by unfold lengthExtra; split <;> omega
theorem distanceExtra_le {i : Nat} (h : i < 30) : distanceExtra i ≤ 32 := by unfold distanceExtra; split <;> omega

theorem lengthBase_pos (i : Nat) : 1 ≤ lengthBase i := by
  induction i with
  | zero => simp [lengthBase]
  | succ i ih => unfold lengthBase; have := Nat.two_pow_pos (lengthExtra i); split <;> omega

/-! ## A block of tokens -/

theorem op_run_length_lit (out : List Byte) (b : Byte) : ((Token.literal b).op.run out) = out ++ [b] := rfl

theorem huffBlock_ok {data : List Byte} {lit dist : Tree} {ll dl : List Nat} (hl : IsTree lit ll)
    (hd : IsTree dist dl) (hend : Coded ll 256) (ts : List Token) (fuel : Nat) (s : Bs) (out room : List Byte)
    (rest : List Bool) (hf : room.length < fuel) (hi : Inv data s)
    (hw : ∀ t ∈ ts, t.wf ll dl) (hok : Spec.Lz.Ok out (ts.map Token.op))
    (hr : rem data s = tokensBits ll dl ts ++ rest)
    (hlen : (run out (ts.map Token.op)).length ≤ out.length + room.length) :
    ∃ s', huffBlock data lit dist fuel s (out ++ room) out.length = .ok (s',
        run out (ts.map Token.op) ++ room.drop ((run out (ts.map Token.op)).length - out.length),
        (run out (ts.map Token.op)).length) ∧ Inv data s' ∧ rem data s' = rest := by
  induction ts generalizing fuel s out room with
  | nil =>
    obtain ⟨fuel, rfl⟩ : ∃ f, fuel = f + 1 := ⟨fuel - 1, by omega⟩
    simp only [tokensBits, List.flatMap_nil, List.nil_append] at hr
    obtain ⟨s1, e, h1, h2⟩ := symbol_of_rem hl hend hi hr
    refine ⟨s1, ?_, h1, h2⟩
    unfold huffBlock
    rw [e, R.ok_bind]
    simp [run]
  | cons t ts ih =>
    obtain ⟨fuel, rfl⟩ : ∃ f, fuel = f + 1 := ⟨fuel - 1, by omega⟩
    have hwt := hw t (by simp)
    have hr' : rem data s = t.bits ll dl ++ (tokensBits ll dl ts ++ rest) := by
      rw [hr]; simp [tokensBits]
    simp only [List.map_cons, Spec.Lz.Ok, run] at hok hlen ⊢
    have hmono := Lz.le_run (t.op.run out) (ts.map Token.op)
    unfold huffBlock
    cases t with
    | literal b =>
      simp only [Token.bits, Token.wf] at hr' hwt
      obtain ⟨s1, e, h1, h2⟩ := symbol_of_rem hl hwt hi hr'
      simp only [op_run_length_lit, List.length_append, List.length_singleton] at hok hlen hmono ⊢
      rw [e, R.ok_bind]
      have hb := b.isLt
      simp only
      rw [if_neg (by omega), if_pos (by omega), R.require_true (by simp; omega), R.ok_bind,
        R.set_ok (by simp; omega), R.ok_bind]
      obtain ⟨r, room', rfl⟩ : ∃ r room', room = r :: room' := by
        cases room with
        | nil => simp at hlen; omega
        | cons r room' => exact ⟨r, room', rfl⟩
      have e2 : (out ++ r :: room').set out.length (BitVec.ofNat 8 b.toNat) = (out ++ [b]) ++ room' := by
        rw [List.set_append_right _ _ (by omega)]; simp
      rw [e2]
      simp only [List.length_cons] at hf hlen
      obtain ⟨s', e', g1, g2⟩ := ih fuel s1 (out ++ [b]) room' (by omega) h1
        (fun t ht => hw t (by simp [ht])) hok.2 h2 (by simp; omega)
      simp only [List.length_append, List.length_singleton] at e'
      refine ⟨s', ?_, g1, g2⟩
      rw [e']
      congr 3
      obtain ⟨k, hk⟩ : ∃ k, (run (out ++ [b]) (ts.map Token.op)).length - out.length = k + 1 :=
        ⟨(run (out ++ [b]) (ts.map Token.op)).length - out.length - 1, by omega⟩
      rw [hk, List.drop_succ_cons]
      congr 2
      omega
    | copy i x j y =>
      simp only [Token.bits, Token.wf, List.append_assoc] at hr' hwt
      obtain ⟨w1, w2, w3, w4, w5, w6⟩ := hwt
      simp only [Token.op, Op.run, Op.ok] at hok hlen hmono ⊢
      rw [Lz.copy_length] at hmono
      obtain ⟨s1, e1, h1, r1⟩ := symbol_of_rem hl w3 hi hr'
      obtain ⟨s2, e2, h2, r2⟩ := getValue_lsb h1 (lengthExtra_le w1) w2 r1
      obtain ⟨s3, e3, h3, r3⟩ := symbol_of_rem hd w6 h2 r2
      obtain ⟨s4, e4, h4, r4⟩ := getValue_lsb h3 (distanceExtra_le w4) w5 r3
      rw [e1, R.ok_bind]
      simp only
      rw [if_neg (by omega), if_neg (by omega), if_pos (by omega), show 257 + i - 257 = i by omega,
        lengthExtras_eq w1, R.ok_bind, e2, R.ok_bind]
      simp only
      rw [lengthBases_eq w1, R.ok_bind, e3, R.ok_bind]
      simp only
      rw [distanceExtras_eq w4, R.ok_bind, e4, R.ok_bind]
      simp only
      rw [distanceBases_eq w4, R.ok_bind, R.require_true hok.1.2, R.ok_bind, R.subU_ok (by simp), R.ok_bind,
        R.require_true (by simp; omega), R.ok_bind,
        Lz.copyMatch_ok _ _ out room hok.1.1 hok.1.2 (by omega), R.ok_bind]
      have hpos := lengthBase_pos i
      obtain ⟨s', e', g1, g2⟩ := ih fuel s4 (copy (distanceBase j + y) (lengthBase i + x) out)
        (room.drop (lengthBase i + x)) (by simp; omega) h4
        (fun t ht => hw t (by simp [ht])) hok.2 r4 (by simp; omega)
      rw [Lz.copy_length] at e'
      refine ⟨s', ?_, g1, g2⟩
      generalize run (copy (distanceBase j + y) (lengthBase i + x) out) (ts.map Token.op) = R' at *
      rw [e', List.drop_drop, show lengthBase i + x + (R'.length - (out.length + (lengthBase i + x)))
        = R'.length - out.length by omega]

/-! ## Code lengths -/

theorem foldl_set_get {α} (f : Nat → α) (ks : List Nat) (l : List α) (j : Nat) :
    (ks.foldl (fun l k => l.set k (f k)) l)[j]? = if j ∈ ks ∧ j < l.length then some (f j) else l[j]? := by
  induction ks generalizing l with
  | nil => simp
  | cons k ks ih =>
    rw [List.foldl_cons, ih, List.length_set]
    by_cases h1 : j ∈ ks ∧ j < l.length
    · rw [if_pos h1, if_pos (by simp [h1])]
    · rw [if_neg h1]
      by_cases h2 : j = k
      · subst h2
        by_cases h3 : j < l.length
        · rw [if_pos (by simp [h3]), List.getElem?_set_self h3]
        · rw [if_neg (by simp [h3])]
          rw [List.getElem?_eq_none (by simp; omega), List.getElem?_eq_none (by omega)]
      · rw [List.getElem?_set_ne (by omega), if_neg]
        rintro ⟨h3, h4⟩
        simp only [List.mem_cons] at h3
        exact h1 ⟨h3.resolve_left h2, h4⟩

theorem foldl_set_length {α} (f : Nat → α) (ks : List Nat) (l : List α) :
    (ks.foldl (fun l k => l.set k (f k)) l).length = l.length := by
  induction ks generalizing l with
  | nil => rfl
  | cons k ks ih => rw [List.foldl_cons, ih, List.length_set]

theorem sequence_eq : sequence = order := rfl
theorem order_lt : ∀ s ∈ order, s < 19 := by decide
theorem mem_order {s : Nat} (h : s < 19) : s ∈ order := by
  have : ∀ s < 19, s ∈ order := by decide
  exact this s h

def getL (l : List Nat) (k : Nat) : Byte := BitVec.ofNat 8 (l.getD k 0)

theorem readCodeSizes_ok {data : List Byte} (lengths : List Nat) (hs : ∀ l ∈ lengths, l ≤ 7) (pre ks post : List Nat)
    (hord : order = pre ++ ks ++ post) (sizes : List Byte) (hlen : 19 ≤ sizes.length) (s : Bs) (rest : List Bool)
    (hi : Inv data s) (hr : rem data s = ks.flatMap (fun k => lsb 3 (lengths.getD k 0)) ++ rest) :
    ∃ s', readCodeSizes data (List.range' pre.length ks.length) sizes s
        = .ok (ks.foldl (fun l k => l.set k (getL lengths k)) sizes, s') ∧ Inv data s' ∧ rem data s' = rest := by
  induction ks generalizing pre sizes s with
  | nil => exact ⟨s, rfl, hi, by simpa using hr⟩
  | cons k ks ih =>
    have hk : lengths.getD k 0 < 2 ^ 3 := by
      rw [List.getD_eq_getElem?_getD]
      by_cases hk : k < lengths.length
      · have := hs lengths[k] (List.getElem_mem hk)
        rw [List.getElem?_eq_getElem hk]
        simp; omega
      · rw [List.getElem?_eq_none (by omega)]; simp
    rw [List.flatMap_cons, List.append_assoc] at hr
    obtain ⟨s1, e, h1, r1⟩ := getValue_lsb hi (by omega) hk hr
    rw [List.length_cons, List.range'_succ]
    unfold readCodeSizes
    rw [e, R.ok_bind]
    simp only
    have hget : R.get sequence pre.length = .ok k := by
      rw [sequence_eq, hord, R.get]; simp
    have hk19 : k < 19 := order_lt k (by rw [hord]; simp)
    rw [hget, R.ok_bind, R.set_ok (by omega), R.ok_bind]
    obtain ⟨s', e', g1, g2⟩ := ih (pre ++ [k]) (by rw [hord]; simp) (sizes.set k (getL lengths k))
      (by simpa using hlen) s1 h1 r1
    rw [List.length_append, List.length_singleton] at e'
    exact ⟨s', e', g1, g2⟩

theorem clearCodeSizes_ok (lengths : List Nat) (pre ks : List Nat) (hord : order = pre ++ ks)
    (hz : ∀ k ∈ ks, lengths.getD k 0 = 0) (sizes : List Byte) (hlen : 19 ≤ sizes.length) :
    clearCodeSizes (List.range' pre.length ks.length) sizes
      = .ok (ks.foldl (fun l k => l.set k (getL lengths k)) sizes) := by
  induction ks generalizing pre sizes with
  | nil => rfl
  | cons k ks ih =>
    rw [List.length_cons, List.range'_succ]
    unfold clearCodeSizes
    have hget : R.get sequence pre.length = .ok k := by
      rw [sequence_eq, hord, R.get]; simp
    have hk19 : k < 19 := order_lt k (by rw [hord]; simp)
    rw [hget, R.ok_bind, R.set_ok (by omega), R.ok_bind]
    have hz0 : getL lengths k = 0#8 := by unfold getL; rw [hz k (by simp)]
    have := ih (pre ++ [k]) (by rw [hord]; simp) (fun k' h => hz k' (by simp [h])) (sizes.set k 0#8) (by simpa using hlen)
    rw [List.length_append, List.length_singleton] at this
    rw [this, List.foldl_cons, hz0]

/-- Code lengths as bytes. -/
def enc (l : List Nat) : List Byte := l.map (BitVec.ofNat 8)

theorem enc_append (a b : List Nat) : enc (a ++ b) = enc a ++ enc b := by simp [enc]
@[simp] theorem enc_length (a : List Nat) : (enc a).length = a.length := by simp [enc]
theorem enc_replicate (n a : Nat) : enc (List.replicate n a) = List.replicate n (BitVec.ofNat 8 a) := by simp [enc]

theorem lens_enc {l : List Nat} (h : ∀ x ∈ l, x < 256) : lens (enc l) = l := by
  unfold lens enc
  rw [List.map_map]
  conv_rhs => rw [← List.map_id l]
  apply List.map_congr_left
  intro x hx
  simp only [Function.comp, BitVec.toNat_ofNat, id]
  exact Nat.mod_eq_of_lt (h x hx)

theorem fill_ok (size : Byte) (n : Nat) (a tail : List Byte) (h : n ≤ tail.length) :
    fill size n (a ++ tail) a.length = .ok (a ++ List.replicate n size ++ tail.drop n, a.length + n) := by
  induction n generalizing a tail with
  | zero => simp [fill]
  | succ n ih =>
    cases tail with
    | nil => simp at h
    | cons t tail =>
      unfold fill
      rw [R.set_ok (by simp), R.ok_bind, List.set_append_right _ _ (by omega)]
      have := ih (a ++ [size]) tail (by simpa using h)
      simp only [List.length_append, List.length_singleton, List.append_assoc, List.singleton_append] at this
      simp only [Nat.sub_self, List.set_cons_zero]
      rw [this, List.replicate_succ]
      simp
      omega

theorem item_run_length (out : List Nat) (it : Item) : (it.run out).length = out.length + it.size := by
  cases it <;> simp [Item.run, Item.size]

theorem foldl_run_length (out : List Nat) (items : List Item) : out.length ≤ (items.foldl Item.run out).length := by
  induction items generalizing out with
  | nil => simp
  | cons it items ih =>
    rw [List.foldl_cons]
    have := ih (it.run out)
    rw [item_run_length] at this
    omega

theorem item_size_pos {it : Item} (h : it.ok) : 1 ≤ it.size := by
  cases it <;> simp [Item.ok, Item.size] at h ⊢ <;> omega

theorem getLast_get (out : List Nat) (h : out ≠ []) (tail : List Byte) :
    R.get (enc out ++ tail) (out.length - 1) = .ok (BitVec.ofNat 8 (out.getLastD 0)) := by
  have hp := List.length_pos_iff.mpr h
  rw [R.get_ok (by simp; omega), List.getElem_append_left (by simp; omega)]
  congr 1
  simp only [enc, List.getElem_map]
  congr 1
  rw [List.getLastD_eq_getLast?, List.getLast?_eq_getElem?, List.getElem?_eq_getElem (by omega)]
  rfl

theorem readSizes_ok {data : List Byte} {t : Tree} {cl : List Nat} (ht : IsTree t cl) (total : Nat) (items : List Item)
    (fuel : Nat) (out : List Nat) (tail : List Byte) (s : Bs) (rest : List Bool)
    (hf : total ≤ out.length + fuel) (htail : total ≤ out.length + tail.length) (hi : Inv data s)
    (hok : ∀ it ∈ items, it.ok ∧ Coded cl it.symbol)
    (hstart : out = [] → ∀ n, items.head? ≠ some (.repeat n))
    (htot : (items.foldl Item.run out).length = total)
    (hr : rem data s = items.flatMap (fun it => codeBits cl it.symbol ++ it.extra) ++ rest) :
    ∃ s', readSizes data t total fuel (enc out ++ tail) out.length s
        = .ok (enc (items.foldl Item.run out) ++ tail.drop (total - out.length), s') ∧
      Inv data s' ∧ rem data s' = rest := by
  induction items generalizing fuel out tail s with
  | nil =>
    simp only [List.foldl_nil] at htot
    unfold readSizes
    rw [if_neg (by omega)]
    exact ⟨s, by simp [htot], hi, by simpa using hr⟩
  | cons it items ih =>
    obtain ⟨hit, hc⟩ := hok it (by simp)
    have hsz := item_size_pos hit
    rw [List.foldl_cons] at htot
    have hmono := foldl_run_length (it.run out) items
    rw [item_run_length] at hmono
    rw [List.flatMap_cons, List.append_assoc, List.append_assoc] at hr
    obtain ⟨s1, e1, h1, r1⟩ := symbol_of_rem ht hc hi hr
    obtain ⟨fuel, rfl⟩ : ∃ f, fuel = f + 1 := ⟨fuel - 1, by omega⟩
    obtain ⟨sym, hsym⟩ : ∃ sym, sym = it.symbol := ⟨_, rfl⟩
    rw [← hsym] at e1
    unfold readSizes
    rw [if_pos (by omega)]
    simp only
    rw [e1, R.ok_bind]
    simp only
    -- what is left after an item that fills `n` entries
    have key : ∀ s2 v, Inv data s2 → rem data s2 = items.flatMap (fun it => codeBits cl it.symbol ++ it.extra) ++ rest →
        it.run out = out ++ List.replicate it.size v →
        ∃ s', readSizes data t total fuel (enc out ++ List.replicate it.size (BitVec.ofNat 8 v) ++ tail.drop it.size)
          (out.length + it.size) s2 = .ok (enc (items.foldl Item.run (it.run out)) ++ tail.drop (total - out.length), s') ∧
          Inv data s' ∧ rem data s' = rest := by
      intro s2 v h2 r2 hrun
      obtain ⟨s', e', g1, g2⟩ := ih fuel (it.run out) (tail.drop it.size) s2
        (by rw [item_run_length]; omega) (by rw [item_run_length, List.length_drop]; omega) h2
        (fun it' h => hok it' (by simp [h]))
        (fun h => by
          have := congrArg List.length h
          rw [item_run_length] at this
          simp at this
          omega) htot r2
      refine ⟨s', ?_, g1, g2⟩
      rw [item_run_length, List.drop_drop] at e'
      rw [← enc_replicate, ← enc_append, ← hrun, e']
      congr 4
      omega
    cases it with
    | len l =>
      simp only [Item.symbol, Item.extra, List.nil_append, Item.ok] at hit r1 hsym
      subst hsym
      rw [if_pos (by omega), R.set_ok (by simp; simp [Item.size] at hmono; omega), R.ok_bind]
      obtain ⟨s', e', g1, g2⟩ := key s1 sym h1 r1 rfl
      refine ⟨s', ?_, g1, g2⟩
      simp only [Item.size] at e' hmono
      rw [List.foldl_cons, ← e']
      congr 1
      rw [List.set_append_right _ _ (by simp)]
      cases tail with
      | nil => simp at htail; omega
      | cons x tail => simp
    | «repeat» n =>
      simp only [Item.symbol, Item.extra, Item.ok, Item.size] at hit r1 hmono hsym
      have hne : out ≠ [] := fun h => hstart h n rfl
      have hp := List.length_pos_iff.mpr hne
      obtain ⟨s2, e2, h2, r2⟩ := getValue_lsb h1 (by omega) (show n - 3 < 2 ^ 2 by omega) r1
      rw [if_neg (by omega), R.require_true (by omega), R.ok_bind, R.require_true (by omega), R.ok_bind]
      unfold repeatSize repeatTimes
      rw [if_pos hsym, if_pos hsym, getLast_get out hne, R.ok_bind, e2, R.ok_bind]
      simp only [R.pure_eq, R.ok_bind]
      rw [show n - 3 + 3 = n by omega, R.require_true (by omega), R.ok_bind]
      have hfill := fill_ok (BitVec.ofNat 8 (out.getLastD 0)) n (enc out) tail (by omega)
      rw [enc_length] at hfill
      rw [hfill, R.ok_bind]
      exact key s2 _ h2 r2 rfl
    | zeros n =>
      simp only [Item.symbol, Item.extra, Item.ok, Item.size] at hit r1 hmono hsym
      obtain ⟨s2, e2, h2, r2⟩ := getValue_lsb h1 (by omega) (show n - 3 < 2 ^ 3 by omega) r1
      rw [if_neg (by omega), R.require_true (by omega), R.ok_bind, R.require_true (by omega), R.ok_bind]
      unfold repeatSize repeatTimes
      rw [if_neg (by omega), if_neg (by omega), if_pos hsym, R.ok_bind, e2, R.ok_bind]
      simp only [R.pure_eq, R.ok_bind]
      rw [show n - 3 + 3 = n by omega, R.require_true (by omega), R.ok_bind]
      have hfill := fill_ok 0#8 n (enc out) tail (by omega)
      rw [enc_length] at hfill
      rw [hfill, R.ok_bind]
      exact key s2 0 h2 r2 rfl
    | zerosLong n =>
      simp only [Item.symbol, Item.extra, Item.ok, Item.size] at hit r1 hmono hsym
      obtain ⟨s2, e2, h2, r2⟩ := getValue_lsb h1 (by omega) (show n - 11 < 2 ^ 7 by omega) r1
      rw [if_neg (by omega), R.require_true (by omega), R.ok_bind, R.require_true (by omega), R.ok_bind]
      unfold repeatSize repeatTimes
      rw [if_neg (by omega), if_neg (by omega), if_neg (by omega), R.ok_bind, e2, R.ok_bind]
      simp only [R.pure_eq, R.ok_bind]
      rw [show n - 11 + 11 = n by omega, R.require_true (by omega), R.ok_bind]
      have hfill := fill_ok 0#8 n (enc out) tail (by omega)
      rw [enc_length] at hfill
      rw [hfill, R.ok_bind]
      exact key s2 0 h2 r2 rfl

theorem run_le15 (items : List Item) (out : List Nat) (ho : ∀ x ∈ out, x ≤ 15) (hok : ∀ it ∈ items, it.ok) :
    ∀ x ∈ items.foldl Item.run out, x ≤ 15 := by
  induction items generalizing out with
  | nil => exact ho
  | cons it items ih =>
    rw [List.foldl_cons]
    apply ih _ _ (fun it' h => hok it' (by simp [h]))
    have hit := hok it (by simp)
    intro x hx
    cases it with
    | len l =>
      simp only [Item.run, List.mem_append, List.mem_singleton] at hx
      rcases hx with hx | rfl
      · exact ho x hx
      · exact hit
    | «repeat» n =>
      simp only [Item.run, List.mem_append, List.mem_replicate] at hx
      rcases hx with hx | ⟨_, rfl⟩
      · exact ho x hx
      · cases h : out.getLast? with
        | none => simp [List.getLastD_eq_getLast?, h]
        | some y =>
          rw [List.getLastD_eq_getLast?, h]
          exact ho y (List.mem_of_getLast? h)
    | zeros n =>
      simp only [Item.run, List.mem_append, List.mem_replicate] at hx
      rcases hx with hx | ⟨_, rfl⟩
      · exact ho x hx
      · omega
    | zerosLong n =>
      simp only [Item.run, List.mem_append, List.mem_replicate] at hx
      rcases hx with hx | ⟨_, rfl⟩
      · exact ho x hx
      · omega

/-! ## The codes of a block -/

theorem new_symbols (n m : Nat) : (new n m).symbols.length = n := by simp [new]

theorem getD_eq {α} {l : List α} {i : Nat} {d : α} (h : i < l.length) : l.getD i d = l[i] := by
  simp [List.getD_eq_getElem?_getD, h]

theorem dynamicTrees_ok {data : List Byte} (d : Spec.Deflate.Dynamic) (hw : d.wfBase) (hd : d.distCode) (s : Bs) (rest : List Bool)
    (hi : Inv data s) (hr : rem data s = d.bits ++ rest) :
    ∃ lit dist s', dynamicTrees data s = .ok (lit, dist, s') ∧ IsTree lit d.lit ∧ IsTree dist d.dist ∧
      Inv data s' ∧ rem data s' = rest := by
  obtain ⟨⟨l1, l2⟩, ⟨d1, d2⟩, ⟨c1, c2⟩, hlen, hsmall, hun, hval, hok, hstart, htot, hlv, hend⟩ := hw
  simp only [Dynamic.bits, List.append_assoc] at hr
  -- the three numbers
  have hhdr : lsb 5 (d.literals - 257) ++ (lsb 5 (d.distances - 1) ++ lsb 4 (d.codes - 4))
      = lsb 14 (d.literals - 257 + 32 * (d.distances - 1) + 1024 * (d.codes - 4)) := by
    apply val_inj
    · simp
    · rw [val_append, val_append, val_lsb_of_lt (by omega), val_lsb_of_lt (by omega), val_lsb_of_lt (by omega),
        val_lsb_of_lt (by omega), lsb_length, lsb_length]
      omega
  rw [show ∀ x, lsb 5 (d.literals - 257) ++ (lsb 5 (d.distances - 1) ++ (lsb 4 (d.codes - 4) ++ x))
      = (lsb 5 (d.literals - 257) ++ (lsb 5 (d.distances - 1) ++ lsb 4 (d.codes - 4))) ++ x by simp, hhdr] at hr
  obtain ⟨s1, e1, h1, r1⟩ := getValue_lsb hi (by omega) (by omega) hr
  generalize hv : d.literals - 257 + 32 * (d.distances - 1) + 1024 * (d.codes - 4) = v at e1
  have v1 : (v &&& 0x1f) + 257 = d.literals := by
    rw [show (0x1f : Nat) = 2 ^ 5 - 1 from rfl, Nat.and_two_pow_sub_one_eq_mod]; omega
  have v2 : (v >>> 5 &&& 0x1f) + 1 = d.distances := by
    rw [show (0x1f : Nat) = 2 ^ 5 - 1 from rfl, Nat.and_two_pow_sub_one_eq_mod, Nat.shiftRight_eq_div_pow]; omega
  have v3 : v >>> 5 >>> 5 + 4 = d.codes := by
    rw [Nat.shiftRight_eq_div_pow, Nat.shiftRight_eq_div_pow]; omega
  -- the code length codes
  have horder : order.length = 19 := rfl
  obtain ⟨s2, e2, h2, r2⟩ := readCodeSizes_ok (data := data) d.lengths hsmall [] (order.take d.codes) (order.drop d.codes)
    (by rw [List.nil_append, List.take_append_drop]) (List.replicate 316 0#8) (by rw [List.length_replicate]; omega) s1 _ h1 r1
  have e3 := clearCodeSizes_ok d.lengths (order.take d.codes) (order.drop d.codes) (by simp) hun
    ((order.take d.codes).foldl (fun l k => l.set k (getL d.lengths k)) (List.replicate 316 0#8))
    (by rw [foldl_set_length, List.length_replicate]; omega)
  rw [← List.foldl_append, List.take_append_drop] at e3
  rw [List.length_nil, List.length_take, horder, Nat.min_eq_left c2, ← List.range_eq_range'] at e2
  rw [List.length_take, List.length_drop, horder, Nat.min_eq_left c2] at e3
  generalize hsz : order.foldl (fun l k => l.set k (getL d.lengths k)) (List.replicate 316 0#8) = sizes at e3
  have hszl : sizes.length = 316 := by rw [← hsz, foldl_set_length, List.length_replicate]
  have htake : sizes.take 19 = enc d.lengths := by
    apply List.ext_getElem?
    intro j
    by_cases hj : j < 19
    · rw [List.getElem?_take_of_lt hj, ← hsz, foldl_set_get, if_pos ⟨mem_order hj, by rw [List.length_replicate]; omega⟩]
      rw [enc, List.getElem?_map, List.getElem?_eq_getElem (by omega), getL, getD_eq (by omega)]
      rfl
    · rw [List.getElem?_eq_none (by simp; omega), List.getElem?_eq_none (by simp; omega)]
  have hlens : lens (enc d.lengths) = d.lengths := lens_enc (fun x hx => by have := hsmall x hx; omega)
  obtain ⟨t, et, tl, ts, ht⟩ := build_ok (new 19 15) (enc d.lengths) (by simp; omega) (by simp [new, hlen])
    (by rw [hlens]; exact hval)
  rw [hlens] at ht
  -- the code lengths
  obtain ⟨s4, e4, h4, r4⟩ := readSizes_ok (data := data) ht (d.literals + d.distances) d.items
    (d.literals + d.distances) [] sizes s2 rest (by rw [List.length_nil]; omega) (by omega) h2 hok (fun _ => hstart) htot r2
  simp only [enc, List.map_nil, List.nil_append, List.length_nil, Nat.sub_zero] at e4
  have hle15 := run_le15 d.items [] (by simp) (fun it h => (hok it h).1)
  have hexp : d.items.foldl Item.run [] = expand d.items := rfl
  rw [hexp] at e4 hle15
  have hlit : lens (enc d.lit) = d.lit := lens_enc (fun x hx => by
    have := hle15 x (List.mem_of_mem_take hx); omega)
  have hdist : lens (enc d.dist) = d.dist := lens_enc (fun x hx => by
    have := hle15 x (List.mem_of_mem_drop hx); omega)
  have hll : d.lit.length = d.literals := by unfold Dynamic.lit; rw [List.length_take]; omega
  have hdl : d.dist.length = d.distances := by unfold Dynamic.dist; rw [List.length_drop]; omega
  obtain ⟨tl', el, _, _, hl⟩ := build_ok (new 288 15) (enc d.lit) (by rw [enc_length]; omega) (by rw [enc_length, new_symbols]; omega)
    (by rw [hlit]; exact hlv)
  obtain ⟨td', ed, _, _, hd'⟩ := build_ok (new 30 15) (enc d.dist) (by rw [enc_length]; omega) (by rw [enc_length, new_symbols]; omega)
    (by rw [hdist]; exact hd)
  rw [hlit] at hl
  rw [hdist] at hd'
  refine ⟨tl', td', s4, ?_, hl, hd', h4, r4⟩
  unfold dynamicTrees
  simp only
  rw [e1, R.ok_bind]
  simp only
  rw [v1, v2, v3, R.require_true l2, R.ok_bind, R.require_true d2, R.ok_bind, e2, R.ok_bind]
  simp only
  rw [e3, R.ok_bind, R.slice_ok (by omega) (by omega), R.ok_bind]
  simp only [List.drop_zero, Nat.sub_zero]
  rw [htake, et, R.ok_bind, e4, R.ok_bind]
  simp only
  have hbytes : List.map (BitVec.ofNat 8) (expand d.items) ++ List.drop (d.literals + d.distances) sizes
      = enc d.lit ++ (enc d.dist ++ List.drop (d.literals + d.distances) sizes) := by
    rw [← List.append_assoc, ← enc_append]
    unfold Dynamic.lit Dynamic.dist
    rw [List.take_append_drop]; rfl
  rw [hbytes, R.get_ok (by simp; omega), R.ok_bind]
  have h256 : 256 < d.lit.length := by omega
  rw [R.require_true (by
    rw [List.getElem_append_left (by simp; omega)]
    intro h0
    have h3 := congrArg BitVec.toNat h0
    simp only [enc, List.getElem_map, BitVec.toNat_ofNat] at h3
    have h5 := hle15 d.lit[256] (List.mem_of_mem_take (List.getElem_mem h256))
    unfold Coded at hend
    rw [getD_eq h256] at hend
    simp only [Nat.zero_mod] at h3
    omega), R.ok_bind]
  have hs1 : R.slice (enc d.lit ++ (enc d.dist ++ List.drop (d.literals + d.distances) sizes)) 0 d.literals
      = .ok (enc d.lit) := by
    rw [R.slice_ok (by omega) (by simp; omega)]
    simp only [List.drop_zero, Nat.sub_zero]
    rw [List.take_left' (by simp [hll])]
  have hs2 : R.slice (enc d.lit ++ (enc d.dist ++ List.drop (d.literals + d.distances) sizes)) d.literals
      (d.literals + d.distances) = .ok (enc d.dist) := by
    rw [R.slice_ok (by omega) (by simp; omega), List.drop_left' (by simp [hll]),
      List.take_left' (by simp [hdl])]
  rw [hs1, R.ok_bind, el, R.ok_bind, hs2, R.ok_bind, ed, R.ok_bind]
  rfl

theorem valid_fixedLit : Valid 15 fixedLit := by
  unfold Valid Kraft
  decide +kernel

theorem valid_fixedDist : Valid 15 (List.replicate 30 5) := by
  unfold Valid Kraft
  decide +kernel

theorem fixedTrees_ok : ∃ lit dist, fixedTrees = .ok (lit, dist) ∧ IsTree lit fixedLit ∧
    IsTree dist (List.replicate 30 5) := by
  have s1 : R.slice fixedSizes 0 288 = .ok (enc fixedLit) := by decide +kernel
  have s2 : R.slice fixedSizes 288 318 = .ok (enc (List.replicate 30 5)) := by decide +kernel
  have l1 : lens (enc fixedLit) = fixedLit := by decide +kernel
  have l2 : lens (enc (List.replicate 30 5)) = List.replicate 30 5 := by decide +kernel
  have n1 : (enc fixedLit).length = 288 := by decide +kernel
  have n2 : (enc (List.replicate 30 5)).length = 30 := by decide +kernel
  obtain ⟨t1, e1, _, _, h1⟩ := build_ok (new 288 15) (enc fixedLit) (by omega) (by simp only [new, List.length_replicate]; omega)
    (by rw [l1]; exact valid_fixedLit)
  obtain ⟨t2, e2, _, _, h2⟩ := build_ok (new 30 15) (enc (List.replicate 30 5)) (by omega) (by simp only [new, List.length_replicate]; omega)
    (by rw [l2]; exact valid_fixedDist)
  rw [l1] at h1
  rw [l2] at h2
  refine ⟨t1, t2, ?_, h1, h2⟩
  unfold fixedTrees
  rw [s1, R.ok_bind, e1, R.ok_bind, s2, R.ok_bind, e2, R.ok_bind]
  rfl

theorem fixedDist_bits {j : Nat} (h : j < 30) :
    codeBits (List.replicate 30 5) j = codeBits fixedDist j := by
  have : ∀ j < 30, codeBits (List.replicate 30 5) j = codeBits fixedDist j := by decide +kernel
  exact this j h

theorem fixedDist_coded {j : Nat} (h : j < 30) : Coded (List.replicate 30 5) j := by
  have : ∀ j < 30, 0 < (List.replicate 30 5).getD j 0 := by decide +kernel
  exact this j h

theorem fixed_bits (ts : List Token) (hw : ∀ t ∈ ts, t.wf fixedLit fixedDist) :
    tokensBits fixedLit (List.replicate 30 5) ts = tokensBits fixedLit fixedDist ts ∧
    ∀ t ∈ ts, t.wf fixedLit (List.replicate 30 5) := by
  have h1 : ∀ t ∈ ts, t.bits fixedLit (List.replicate 30 5) = t.bits fixedLit fixedDist := by
    intro t ht
    cases t with
    | literal b => rfl
    | copy i e j f =>
      have := (hw _ ht).2.2.2.1
      simp only [Token.bits]
      rw [fixedDist_bits this]
  refine ⟨?_, ?_⟩
  · unfold tokensBits
    congr 1
    simp only [List.flatMap]
    rw [List.map_congr_left h1]
  · intro t ht
    have := hw t ht
    cases t with
    | literal b => exact this
    | copy i e j f =>
      obtain ⟨w1, w2, w3, w4, w5, w6⟩ := this
      exact ⟨w1, w2, w3, w4, w5, fixedDist_coded w4⟩

/-! ## Blocks -/

theorem L_mod {data : List Byte} {s : Bs} (hi : Inv data s) : s.n = L data s % 8 := by
  have := hi.small
  unfold L
  omega

theorem rem_aligned {data : List Byte} {s : Bs} (h : s.n = 0) : rem data s = byteBits (data.drop s.off) := by
  unfold rem; rw [h]; rfl

theorem align_ok {data : List Byte} {s : Bs} (hi : Inv data s) {pad rest : List Bool}
    (hp : pad.length = L data s % 8) (hr : rem data s = pad ++ rest) :
    ∃ s', align data s = .ok s' ∧ Inv data s' ∧ rem data s' = rest := by
  have hn := L_mod hi
  have hs := hi.small
  have hand : s.n &&& 0x07 = s.n := by
    rw [show (0x07 : Nat) = 2 ^ 3 - 1 from rfl, Nat.and_two_pow_sub_one_eq_mod]
    exact Nat.mod_eq_of_lt (by omega)
  unfold align
  rw [hand]
  by_cases h : s.n > 0
  · rw [if_pos h]
    obtain ⟨s', e, h1, h2⟩ := getValue_rem hi (by omega) hr
    refine ⟨s', ?_, h1, h2⟩
    unfold skipBits
    rw [show s.n = pad.length by omega, e]
    rfl
  · rw [if_neg h]
    have : pad = [] := List.length_eq_zero_iff.mp (by omega)
    rw [this] at hr
    exact ⟨s, rfl, hi, hr⟩

theorem xor_ffff (x : Nat) (h : x ≤ 65535) : (65535 - x) ^^^ 0xffff = x := by
  apply Nat.eq_of_testBit_eq
  intro i
  rw [Nat.testBit_xor, show (0xffff : Nat) = 2 ^ 16 - 1 from rfl, Nat.testBit_two_pow_sub_one]
  have := Nat.testBit_two_pow_sub_succ (n := 16) (x := x) (by omega) i
  rw [show 2 ^ 16 - (x + 1) = 65535 - x by omega] at this
  rw [show 65535 - x = 2 ^ 16 - 1 - x from rfl] at *
  rw [this]
  by_cases hi : i < 16
  · simp [hi]
  · simp only [hi, decide_false, Bool.false_and, Bool.xor_false]
    symm
    apply Nat.testBit_lt_two_pow
    calc x < 2 ^ 16 := by omega
      _ ≤ 2 ^ i := Nat.pow_le_pow_right (by omega) (by omega)

theorem storedBlock_ok {data : List Byte} {s : Bs} (hi : Inv data s) {pad rest : List Bool} {bytes : List Byte}
    (hp : pad.length = L data s % 8) (hb : bytes.length ≤ 65535)
    (hr : rem data s = (Block.stored pad bytes).body ++ rest) (out room : List Byte) (hlen : bytes.length ≤ room.length) :
    ∃ s', storedBlock data s (out ++ room) out.length = .ok (s', (out ++ bytes) ++ room.drop bytes.length,
        (out ++ bytes).length) ∧ Inv data s' ∧ rem data s' = rest := by
  simp only [Block.body, List.append_assoc] at hr
  have hL : L data s = pad.length + (32 + (8 * bytes.length + rest.length)) := by
    rw [← rem_length, hr]; simp; omega
  obtain ⟨s1, e1, h1, r1⟩ := align_ok hi hp hr
  have hcat : lsb 16 bytes.length ++ lsb 16 (65535 - bytes.length)
      = lsb 32 (bytes.length + 65536 * (65535 - bytes.length)) := by
    apply val_inj
    · simp
    · rw [val_append, val_lsb_of_lt (by omega), val_lsb_of_lt (by omega), val_lsb_of_lt (by omega), lsb_length]; rfl
  rw [← List.append_assoc, hcat] at r1
  obtain ⟨s2, e2, h2, r2⟩ := getValue_lsb h1 (by omega) (by omega) r1
  have hn2 : s2.n = 0 := by
    have h3 := L_mod h2
    have h4 : L data s2 = 8 * bytes.length + rest.length := by
      rw [← rem_length, r2]; simp
    omega
  rw [rem_aligned hn2] at r2
  have hd := byteBits_prefix r2
  have hbits2 : s2.bits = 0 := by have := h2.bits; rw [hn2] at this; omega
  unfold storedBlock
  rw [e1, R.ok_bind, e2, R.ok_bind]
  simp only
  have v1 : (bytes.length + 65536 * (65535 - bytes.length)) &&& 0xffff = bytes.length := by
    rw [show (0xffff : Nat) = 2 ^ 16 - 1 from rfl, Nat.and_two_pow_sub_one_eq_mod]; omega
  have v2 : (bytes.length + 65536 * (65535 - bytes.length)) >>> 16 = 65535 - bytes.length := by
    rw [Nat.shiftRight_eq_div_pow]; omega
  rw [v1, v2, xor_ffff _ hb, R.require_true rfl, R.ok_bind]
  by_cases h0 : bytes.length > 0
  · rw [if_pos h0]
    have hL2 := R.length_of_drop hd (by rintro rfl; simp at h0)
    unfold copyBytes
    simp only
    rw [R.require_true (by omega), R.ok_bind, R.require_true (by simp; omega), R.ok_bind,
      R.slice_of_drop hd h2.off, R.ok_bind, Lz.splice_literal _ _ _ hlen, R.ok_bind]
    refine ⟨⟨s2.off + bytes.length, 0, 0⟩, by simp, ⟨by simp, by simp, by simp only; omega⟩, ?_⟩
    rw [rem_aligned rfl]
    simp only
    rw [hd, byteBits_append, List.append_cancel_left_eq] at r2
    rw [← r2, ← List.drop_drop]
  · rw [if_neg h0]
    have : bytes = [] := List.length_eq_zero_iff.mp (by omega)
    subst this
    refine ⟨s2, by simp, h2, ?_⟩
    rw [rem_aligned hn2]
    simpa [byteBits] using r2

/-- The part of well-formedness that the code needs: a dynamic block has a distance code. -/
def HasDist : Block → Prop
  | .dynamic d _ => d.distCode
  | _ => True

theorem blockBody_ok {data : List Byte} {pos : Nat} (b : Block) (hw : b.wf pos) (hdist : HasDist b) {s : Bs}
    (hi : Inv data s) {rest : List Bool} (hr : rem data s = b.body ++ rest)
    (hpos : pos + 3 + L data s = 8 * data.length) (out room : List Byte) (hok : Spec.Lz.Ok out b.ops)
    (hlen : (run out b.ops).length ≤ out.length + room.length) :
    ∃ s', blockBody data b.type s (out ++ room) out.length = .ok (s',
        run out b.ops ++ room.drop ((run out b.ops).length - out.length), (run out b.ops).length) ∧
      Inv data s' ∧ rem data s' = rest := by
  unfold blockBody
  have hfuel : room.length < (out ++ room).length - out.length + 1 := by simp
  cases b with
  | stored pad bytes =>
    simp only [Block.wf, Block.ops, Block.type, run, Op.run, List.length_append] at hw hlen ⊢
    rw [if_pos trivial]
    obtain ⟨s', e, h1, h2⟩ := storedBlock_ok hi (by omega) hw.2 hr out room (by omega)
    refine ⟨s', ?_, h1, h2⟩
    rw [e, show out.length + bytes.length - out.length = bytes.length by omega, List.length_append]
  | fixed ts =>
    simp only [Block.wf, Block.ops, Block.type, Block.body] at *
    obtain ⟨lit, dist, e, hl, hd⟩ := fixedTrees_ok
    obtain ⟨hb, hw'⟩ := fixed_bits ts hw
    rw [← hb] at hr
    obtain ⟨s', e', h1, h2⟩ := huffBlock_ok hl hd (by unfold Coded; decide +kernel) ts _ s out room rest hfuel hi hw' hok hr hlen
    refine ⟨s', ?_, h1, h2⟩
    rw [if_neg (by omega), if_pos trivial, e, R.ok_bind]
    exact e'
  | dynamic d ts =>
    simp only [Block.wf, Block.ops, Block.type, Block.body, HasDist, List.append_assoc] at *
    obtain ⟨lit, dist, s1, e, hl, hd, h1, r1⟩ := dynamicTrees_ok d hw.1.1 hdist s _ hi hr
    obtain ⟨s', e', h1, h2⟩ := huffBlock_ok hl hd hw.1.1.endCode ts _ s1 out room rest hfuel h1 hw.2 hok r1 hlen
    refine ⟨s', ?_, h1, h2⟩
    rw [if_neg (by omega), if_neg (by omega), if_pos trivial, e, R.ok_bind]
    exact e'

theorem bits_length (b : Block) (last : Bool) : (b.bits last).length = 3 + b.body.length := by
  simp [Block.bits]; omega

theorem body_length {pos : Nat} (b : Block) (hw : b.wf pos) : 7 ≤ b.body.length := by
  have hcb : ∀ ls s, (codeBits ls s).length = ls.getD s 0 := by
    intro ls s
    unfold codeBits
    generalize ls.getD s 0 = k
    generalize code ls s = v
    induction k with
    | zero => rfl
    | succ k ih => simp [Spec.Huffman.bits, ih]
  cases b with
  | stored pad bytes => simp [Block.body]; omega
  | fixed ts =>
    simp only [Block.body, tokensBits, List.length_append]
    have : (codeBits fixedLit 256).length = 7 := by rw [hcb]; decide +kernel
    omega
  | dynamic d ts => simp [Block.body, Dynamic.bits]; omega

theorem block_ok {data : List Byte} {pos : Nat} (b : Block) (hw : b.wf pos) (hdist : HasDist b) (last : Bool) {s : Bs}
    (hi : Inv data s) {rest : List Bool} (hr : rem data s = b.bits last ++ rest)
    (hpos : pos + L data s = 8 * data.length) (out room : List Byte) (hok : Spec.Lz.Ok out b.ops)
    (hlen : (run out b.ops).length ≤ out.length + room.length) :
    ∃ s', block data s (out ++ room) out.length = .ok (last, s',
        run out b.ops ++ room.drop ((run out b.ops).length - out.length), (run out b.ops).length) ∧
      Inv data s' ∧ rem data s' = rest := by
  have htype : b.type < 4 := by cases b <;> simp [Block.type]
  have hcat : last :: lsb 2 b.type = lsb 3 (last.toNat + 2 * b.type) := by
    cases last
    · simp only [Bool.toNat_false, Nat.zero_add]
      rw [show lsb 3 (2 * b.type) = decide (2 * b.type % 2 = 1) :: lsb 2 (2 * b.type / 2) from rfl,
        show 2 * b.type % 2 = 0 by omega, show 2 * b.type / 2 = b.type by omega]
      rfl
    · simp only [Bool.toNat_true]
      rw [show lsb 3 (1 + 2 * b.type) = decide ((1 + 2 * b.type) % 2 = 1) :: lsb 2 ((1 + 2 * b.type) / 2) from rfl,
        show (1 + 2 * b.type) % 2 = 1 by omega, show (1 + 2 * b.type) / 2 = b.type by omega]
      rfl
  unfold Block.bits at hr
  rw [hcat, List.append_assoc] at hr
  have hlt : last.toNat < 2 := by cases last <;> simp
  obtain ⟨s1, e1, h1, r1⟩ := getValue_lsb hi (by omega) (by omega) hr
  have hL : L data s = 3 + L data s1 := by
    rw [← rem_length, ← rem_length, hr, r1]; simp
  obtain ⟨s2, e2, h2, r2⟩ := blockBody_ok b hw hdist h1 r1 (by omega) out room hok hlen
  refine ⟨s2, ?_, h2, r2⟩
  unfold block
  rw [e1, R.ok_bind]
  simp only
  rw [Nat.shiftRight_eq_div_pow, show (last.toNat + 2 * b.type) / 2 ^ 1 = b.type by omega, e2, R.ok_bind]
  simp only [R.pure_eq]
  rw [Nat.and_one_is_mod, show (last.toNat + 2 * b.type) % 2 = last.toNat by omega]
  cases last <;> simp

theorem blocks_ok {data : List Byte} (bs : List Block) (hne : bs ≠ []) (fuel pos : Nat) (s : Bs) (rest : List Bool)
    (hw : Wf pos bs) (hdist : ∀ b ∈ bs, HasDist b) (hi : Inv data s) (hr : rem data s = encode bs ++ rest)
    (hpos : pos + L data s = 8 * data.length) (hf : L data s < fuel) (out room : List Byte)
    (hok : Spec.Lz.Ok out (bs.flatMap Block.ops))
    (hlen : (run out (bs.flatMap Block.ops)).length ≤ out.length + room.length) :
    ∃ s', blocks data fuel s (out ++ room) out.length = .ok (s',
        run out (bs.flatMap Block.ops) ++ room.drop ((run out (bs.flatMap Block.ops)).length - out.length),
        (run out (bs.flatMap Block.ops)).length) ∧ Inv data s' ∧ rem data s' = rest := by
  induction bs generalizing fuel pos s out room with
  | nil => exact absurd rfl hne
  | cons b bs ih =>
    obtain ⟨fuel, rfl⟩ : ∃ f, fuel = f + 1 := ⟨fuel - 1, by omega⟩
    have hbody := body_length b hw.1
    have hsm := hi.small
    simp only [List.flatMap_cons] at hok hlen ⊢
    rw [Lz.ok_append] at hok
    rw [Lz.run_append] at hlen ⊢
    have hm1 := Lz.le_run out b.ops
    have hm2 := Lz.le_run (run out b.ops) (bs.flatMap Block.ops)
    obtain ⟨rest1, hr1⟩ : ∃ r, rem data s = b.bits (decide (bs = [])) ++ r ∧
        r = encode bs ++ rest := by
      cases bs with
      | nil => exact ⟨rest, by simpa [encode] using hr, by simp [encode]⟩
      | cons b' bs => exact ⟨encode (b' :: bs) ++ rest, by simpa [encode] using hr, rfl⟩
    obtain ⟨hr1, hrest⟩ := hr1
    have hLs : L data s = 3 + b.body.length + rest1.length := by
      rw [← rem_length, hr1, List.length_append, bits_length]
    have hoff : s.off < data.length := by unfold L at hLs; omega
    obtain ⟨s1, e1, h1, r1⟩ := block_ok b hw.1 (hdist b (by simp)) _ hi hr1 hpos out room hok.1 (by omega)
    unfold blocks
    rw [if_pos hoff]
    simp only
    rw [e1, R.ok_bind]
    simp only
    by_cases hb : bs = []
    · subst hb
      rw [if_pos (by simp)]
      refine ⟨s1, by simp [run], h1, ?_⟩
      rw [r1, hrest]
      simp [encode]
    · rw [if_neg (by simpa using hb)]
      have hL1 : L data s1 = rest1.length := by rw [← rem_length, r1]
      obtain ⟨s', e', g1, g2⟩ := ih hb fuel _ s1 hw.2 (fun b' h => hdist b' (by simp [h])) h1 (by rw [r1, hrest])
        (by rw [bits_length]; omega) (by omega) (run out b.ops) (room.drop ((run out b.ops).length - out.length))
        hok.2 (by simp; omega)
      refine ⟨s', ?_, g1, g2⟩
      rw [e', List.drop_drop, show (run out b.ops).length - out.length +
        ((run (run out b.ops) (bs.flatMap Block.ops)).length - (run out b.ops).length) =
        (run (run out b.ops) (bs.flatMap Block.ops)).length - out.length by omega]

/-! ## Arbitrary input -/

theorem build_sat (n m : Nat) (hn : n ≤ 65535) (sizes : List Byte) (hs : sizes.length ≤ n) :
    R.Sat (build (new n m) sizes) fun t => IsTree t (lens sizes) := by
  by_cases hv : Valid m (lens sizes)
  · obtain ⟨t, h, _, _, h'⟩ := build_ok (new n m) sizes (by omega) (by simpa [new] using hs) hv
    rw [h]; exact R.sat_ok h'
  · rw [build_err (new n m) sizes (fun h => hv h.2)]
    exact R.sat_err

theorem huffBlock_sat {data : List Byte} {l : Nat} {lit dist : Tree} {ll dl : List Nat} (hl : IsTree lit ll)
    (hd : IsTree dist dl) (hdl : dl.length ≤ 30) (fuel : Nat) (s : Bs) (buf : List Byte) (o : Nat)
    (ho : o ≤ buf.length) (hf : buf.length < o + fuel) (hi : Inv' data l s) :
    R.Sat (huffBlock data lit dist fuel s buf o) fun r => Inv' data l r.1 ∧ r.2.1.length = buf.length ∧
      o ≤ r.2.2 ∧ r.2.2 ≤ buf.length ∧ r.2.1.drop r.2.2 = buf.drop r.2.2 := by
  induction fuel generalizing s buf o with
  | zero => omega
  | succ fuel ih =>
    unfold huffBlock
    refine R.Sat.bind (symbol_sat data l hl s hi) fun r hr => ?_
    obtain ⟨sym, s1⟩ := r
    obtain ⟨_, hi1⟩ := hr
    simp only at hi1 ⊢
    refine R.sat_ite (fun _ => R.sat_pure ⟨hi1, rfl, Nat.le_refl _, ho, rfl⟩) fun h256 => ?_
    refine R.sat_ite (fun hlt => ?_) fun hge => ?_
    · refine R.Sat.bind R.sat_require fun _ h1 => ?_
      rw [R.set_ok h1, R.ok_bind]
      refine R.Sat.mono (ih s1 (buf.set o (BitVec.ofNat 8 sym)) (o + 1) (by simp; omega) (by simp; omega) hi1) ?_
      rintro r ⟨q1, q2, q3, q4, q5⟩
      rw [List.length_set] at q2 q4
      refine ⟨q1, q2, by omega, q4, ?_⟩
      rw [q5, List.drop_set_of_lt (by omega)]
    · refine R.sat_ite (fun hlt => ?_) fun _ => R.sat_err
      rw [lengthExtras_eq (by omega), R.ok_bind]
      have hsm : sym - 257 < 29 := by omega
      generalize sym - 257 = q at hsm ⊢
      refine R.Sat.bind (getValue_sat data _ l (lengthExtra_le hsm) s1 hi1) fun r hr => ?_
      obtain ⟨x, s2⟩ := r
      obtain ⟨_, hi2⟩ := hr
      simp only at hi2 ⊢
      rw [lengthBases_eq (by omega), R.ok_bind]
      refine R.Sat.bind (symbol_sat data l hd s2 hi2) fun r hr => ?_
      obtain ⟨sym2, s3⟩ := r
      obtain ⟨hs2, hi3⟩ := hr
      simp only at hs2 hi3 ⊢
      rw [distanceExtras_eq (by omega), R.ok_bind]
      refine R.Sat.bind (getValue_sat data _ l (distanceExtra_le (by omega)) s3 hi3) fun r hr => ?_
      obtain ⟨y, s4⟩ := r
      obtain ⟨_, hi4⟩ := hr
      simp only at hi4 ⊢
      rw [distanceBases_eq (by omega), R.ok_bind]
      refine R.Sat.bind R.sat_require fun _ h1 => ?_
      rw [R.subU_ok ho, R.ok_bind]
      refine R.Sat.bind R.sat_require fun _ h2 => ?_
      refine R.Sat.bind (Lz.copyMatch_sat _ buf o _ (by omega) (by omega)) fun b hb => ?_
      obtain ⟨b1, b2⟩ := hb
      have hp := lengthBase_pos q
      refine R.Sat.mono (ih s4 b _ (by omega) (by omega) hi4) ?_
      rintro r ⟨q1, q2, q3, q4, q5⟩
      refine ⟨q1, by omega, by omega, by omega, ?_⟩
      rw [q5, Lz.drop_later b2 q3]

theorem readCodeSizes_sat (data : List Byte) (l : Nat) (is : List Nat) (his : ∀ i ∈ is, i < 19) (sizes : List Byte)
    (hl : 19 ≤ sizes.length) (s : Bs) (hi : Inv' data l s) :
    R.Sat (readCodeSizes data is sizes s) fun r => r.1.length = sizes.length ∧ Inv' data l r.2 := by
  induction is generalizing sizes s with
  | nil => exact R.sat_ok ⟨rfl, hi⟩
  | cons i is ih =>
    unfold readCodeSizes
    refine R.Sat.bind (getValue_sat data 3 l (by omega) s hi) fun r hr => ?_
    obtain ⟨v, s1⟩ := r
    simp only
    refine R.Sat.bind (R.sat_get (show i < sequence.length from his i (by simp))) fun k hk => ?_
    have hk19 : k < 19 := order_lt k (List.mem_of_getElem? hk)
    rw [R.set_ok (by omega), R.ok_bind]
    refine R.Sat.mono (ih (fun j h => his j (by simp [h])) _ (by simpa using hl) s1 hr.2) ?_
    rintro r ⟨q1, q2⟩
    exact ⟨by simpa using q1, q2⟩

theorem clearCodeSizes_sat (is : List Nat) (his : ∀ i ∈ is, i < 19) (sizes : List Byte) (hl : 19 ≤ sizes.length) :
    R.Sat (clearCodeSizes is sizes) fun r => r.length = sizes.length := by
  induction is generalizing sizes with
  | nil => exact R.sat_ok rfl
  | cons i is ih =>
    unfold clearCodeSizes
    refine R.Sat.bind (R.sat_get (show i < sequence.length from his i (by simp))) fun k hk => ?_
    have hk19 : k < 19 := order_lt k (List.mem_of_getElem? hk)
    rw [R.set_ok (by omega), R.ok_bind]
    refine R.Sat.mono (ih (fun j h => his j (by simp [h])) _ (by simpa using hl)) ?_
    intro r q
    simpa using q

theorem fill_sat (size : Byte) (n : Nat) (sizes : List Byte) (i : Nat) (h : i + n ≤ sizes.length) :
    R.Sat (fill size n sizes i) fun r => r.1.length = sizes.length ∧ r.2 = i + n := by
  induction n generalizing sizes i with
  | zero => exact R.sat_ok ⟨rfl, rfl⟩
  | succ n ih =>
    unfold fill
    rw [R.set_ok (by omega), R.ok_bind]
    refine R.Sat.mono (ih _ (i + 1) (by simp; omega)) ?_
    rintro r ⟨q1, q2⟩
    exact ⟨by simpa using q1, by omega⟩

theorem repeatTimes_sat (data : List Byte) (l sym : Nat) (s : Bs) (hi : Inv' data l s) :
    R.Sat (repeatTimes data sym s) fun r => 3 ≤ r.1 ∧ Inv' data l r.2 := by
  unfold repeatTimes
  refine R.sat_ite (fun _ => ?_) fun _ => R.sat_ite (fun _ => ?_) fun _ => ?_
  · refine R.Sat.bind (getValue_sat data 2 l (by omega) s hi) fun r hr => ?_
    exact R.sat_pure ⟨by simp, hr.2⟩
  · refine R.Sat.bind (getValue_sat data 3 l (by omega) s hi) fun r hr => ?_
    exact R.sat_pure ⟨by simp, hr.2⟩
  · refine R.Sat.bind (getValue_sat data 7 l (by omega) s hi) fun r hr => ?_
    exact R.sat_pure ⟨by simp only; omega, hr.2⟩

theorem readSizes_sat (data : List Byte) (l : Nat) {t : Tree} {cl : List Nat} (ht : IsTree t cl) (total : Nat)
    (fuel : Nat) (sizes : List Byte) (i : Nat) (s : Bs) (hf : total ≤ i + fuel) (hs : total ≤ sizes.length)
    (hi : Inv' data l s) :
    R.Sat (readSizes data t total fuel sizes i s) fun r => r.1.length = sizes.length ∧ Inv' data l r.2 := by
  induction fuel generalizing sizes i s with
  | zero =>
    unfold readSizes
    rw [if_neg (by omega)]
    exact R.sat_ok ⟨rfl, hi⟩
  | succ fuel ih =>
    unfold readSizes
    refine R.sat_ite (fun h => ?_) fun _ => R.sat_ok ⟨rfl, hi⟩
    simp only
    refine R.Sat.bind (symbol_sat data l ht s hi) fun r hr => ?_
    obtain ⟨sym, s1⟩ := r
    obtain ⟨_, hi1⟩ := hr
    simp only at hi1 ⊢
    refine R.sat_ite (fun _ => ?_) fun h16 => ?_
    · rw [R.set_ok (by omega), R.ok_bind]
      refine R.Sat.mono (ih _ (i + 1) s1 (by omega) (by simpa using hs) hi1) ?_
      rintro r ⟨q1, q2⟩
      exact ⟨by simpa using q1, q2⟩
    · refine R.Sat.bind R.sat_require fun _ h1 => ?_
      refine R.Sat.bind R.sat_require fun _ h2 => ?_
      have hrs : R.Sat (repeatSize sizes i sym) fun _ => True := by
        unfold repeatSize
        refine R.sat_ite (fun h => ?_) fun _ => R.sat_ok trivial
        exact R.Sat.mono (R.sat_get (by omega)) fun _ _ => trivial
      refine R.Sat.bind hrs fun v _ => ?_
      refine R.Sat.bind (repeatTimes_sat data l sym s1 hi1) fun r hr => ?_
      obtain ⟨times, s2⟩ := r
      obtain ⟨ht3, hi2⟩ := hr
      simp only at ht3 hi2 ⊢
      refine R.Sat.bind R.sat_require fun _ h3 => ?_
      refine R.Sat.bind (fill_sat v times sizes i (by omega)) fun r hr => ?_
      obtain ⟨sizes', i'⟩ := r
      obtain ⟨q1, q2⟩ := hr
      simp only at q1 q2 ⊢
      refine R.Sat.mono (ih sizes' i' s2 (by omega) (by omega) hi2) ?_
      rintro r ⟨p1, p2⟩
      exact ⟨by omega, p2⟩

theorem dynamicTrees_sat (data : List Byte) (l : Nat) (s : Bs) (hi : Inv' data l s) :
    R.Sat (dynamicTrees data s) fun r => ∃ ll dl, IsTree r.1 ll ∧ IsTree r.2.1 dl ∧ dl.length ≤ 30 ∧
      Inv' data l r.2.2 := by
  unfold dynamicTrees
  simp only
  refine R.Sat.bind (getValue_sat data 14 l (by omega) s hi) fun r hr => ?_
  obtain ⟨v, s1⟩ := r
  obtain ⟨hv, hi1⟩ := hr
  simp only at hv hi1 ⊢
  have h15 : v >>> 5 >>> 5 ≤ 15 := by
    rw [Nat.shiftRight_eq_div_pow, Nat.shiftRight_eq_div_pow]; omega
  generalize (v &&& 0x1f) + 257 = literals
  generalize (v >>> 5 &&& 0x1f) + 1 = distances
  generalize v >>> 5 >>> 5 = c at h15 ⊢
  refine R.Sat.bind R.sat_require fun _ h1 => ?_
  refine R.Sat.bind R.sat_require fun _ h2 => ?_
  refine R.Sat.bind (readCodeSizes_sat data l _ (by intro i hi; rw [List.mem_range] at hi; omega) _
    (by rw [List.length_replicate]; omega) s1 hi1) fun r hr => ?_
  obtain ⟨sizes1, s2⟩ := r
  obtain ⟨q1, hi2⟩ := hr
  simp only [List.length_replicate] at q1 hi2 ⊢
  refine R.Sat.bind (clearCodeSizes_sat _ (by intro i hi; simp [List.mem_range'] at hi; omega) sizes1 (by omega))
    fun sizes2 q2 => ?_
  refine R.Sat.bind (R.sat_slice (by omega) (by omega)) fun z hz => ?_
  refine R.Sat.bind (build_sat 19 15 (by omega) z (by rw [hz]; simp)) fun t ht => ?_
  refine R.Sat.bind (readSizes_sat data l ht (literals + distances) _ sizes2 0 s2 (by omega) (by omega) hi2) fun r hr => ?_
  obtain ⟨sizes3, s3⟩ := r
  obtain ⟨q3, hi3⟩ := hr
  simp only at q3 hi3 ⊢
  refine R.Sat.bind (R.sat_get (by omega)) fun _ _ => ?_
  refine R.Sat.bind R.sat_require fun _ _ => ?_
  refine R.Sat.bind (R.sat_slice (by omega) (by omega)) fun z1 hz1 => ?_
  refine R.Sat.bind (build_sat 288 15 (by omega) z1 (by rw [hz1]; simp; omega)) fun t1 ht1 => ?_
  refine R.Sat.bind (R.sat_slice (by omega) (by omega)) fun z2 hz2 => ?_
  have hz2l : z2.length ≤ 30 := by rw [hz2]; simp; omega
  refine R.Sat.bind (build_sat 30 15 (by omega) z2 hz2l) fun t2 ht2 => ?_
  exact R.sat_pure ⟨_, _, ht1, ht2, by rw [lens_length]; exact hz2l, hi3⟩

theorem storedBlock_sat (data : List Byte) (l : Nat) (s : Bs) (hi : Inv' data l s) (buf : List Byte) (o : Nat)
    (ho : o ≤ buf.length) :
    R.Sat (storedBlock data s buf o) fun r => Inv' data l r.1 ∧ r.2.1.length = buf.length ∧
      o ≤ r.2.2 ∧ r.2.2 ≤ buf.length ∧ r.2.1.drop r.2.2 = buf.drop r.2.2 := by
  unfold storedBlock
  have ha : R.Sat (align data s) (Inv' data l) := by
    unfold align
    have hand : s.n &&& 0x07 ≤ 7 := Nat.and_le_right
    refine R.sat_ite (fun _ => ?_) fun _ => R.sat_ok hi
    unfold skipBits
    refine R.Sat.bind (getValue_sat data _ l (by omega) s hi) fun r hr => ?_
    exact R.sat_pure hr.2
  refine R.Sat.bind ha fun s1 hi1 => ?_
  refine R.Sat.bind (getValue_sat data 32 l (by omega) s1 hi1) fun r hr => ?_
  obtain ⟨v, s2⟩ := r
  obtain ⟨_, hi2⟩ := hr
  simp only at hi2 ⊢
  generalize v &&& 0xffff = size
  refine R.Sat.bind R.sat_require fun _ _ => ?_
  refine R.sat_ite (fun h => ?_) fun _ => R.sat_pure ⟨hi2, rfl, Nat.le_refl _, ho, rfl⟩
  unfold copyBytes
  simp only [bind_assoc]
  refine R.Sat.bind R.sat_require fun _ h1 => ?_
  refine R.Sat.bind R.sat_require fun _ h2 => ?_
  refine R.Sat.bind (R.sat_slice (by omega) h1) fun bytes hb => ?_
  have hbl : bytes.length = size := by rw [hb]; simp; omega
  rw [R.splice_ok (by omega) h2 (by omega), R.ok_bind]
  refine R.sat_pure ⟨⟨⟨by simp, by simp, h1⟩, ?_⟩, ?_, by simp only; omega, by simp only; omega, ?_⟩
  · rcases hi2.left with h' | h'
    · omega
    · right; unfold L at h' ⊢; simp only; omega
  · simp; omega
  · exact List.drop_left' (by simp; omega)

theorem huff_of_ok {P : Tree → Tree → Prop} {x : R (Tree × Tree)} (h : ∃ a b, x = .ok (a, b) ∧ P a b) :
    R.Sat x fun r => P r.1 r.2 := by
  obtain ⟨a, b, rfl, h⟩ := h
  exact R.sat_ok h

theorem block_sat (data : List Byte) (s : Bs) (hi : Inv data s) (hoff : s.off < data.length) (buf : List Byte) (o : Nat)
    (ho : o ≤ buf.length) :
    R.Sat (block data s buf o) fun r => Inv data r.2.1 ∧
      (r.2.1.off = data.length ∨ L data r.2.1 < L data s) ∧ r.2.2.1.length = buf.length ∧
      o ≤ r.2.2.2 ∧ r.2.2.2 ≤ buf.length ∧ r.2.2.1.drop r.2.2.2 = buf.drop r.2.2.2 := by
  unfold block
  obtain ⟨s1, e1, h1, _, _, h2⟩ := getValue_ok data 3 (by omega) s hi
  have hL8 : 8 ≤ L data s := by unfold L; omega
  rw [e1, R.ok_bind]
  simp only
  have hi1 : Inv' data (L data s - 3) s1 := ⟨h1, by omega⟩
  generalize V data s % 2 ^ 3 = v
  have hbody : R.Sat (blockBody data (v >>> 1) s1 buf o) fun r => Inv' data (L data s - 3) r.1 ∧
      r.2.1.length = buf.length ∧ o ≤ r.2.2 ∧ r.2.2 ≤ buf.length ∧ r.2.1.drop r.2.2 = buf.drop r.2.2 := by
    unfold blockBody
    refine R.sat_ite (fun _ => storedBlock_sat data _ s1 hi1 buf o ho) fun _ => ?_
    refine R.sat_ite (fun _ => ?_) fun _ => ?_
    · have hfix := fixedTrees_ok
      generalize fixedTrees = ft at hfix ⊢
      refine R.Sat.bind (huff_of_ok hfix) fun r hr => ?_
      exact huffBlock_sat hr.1 hr.2 (by rw [List.length_replicate]) _ s1 buf o ho (by omega) hi1
    · refine R.sat_ite (fun _ => ?_) fun _ => R.sat_err
      refine R.Sat.bind (dynamicTrees_sat data _ s1 hi1) fun r hr => ?_
      obtain ⟨lit, dist, s2⟩ := r
      obtain ⟨ll, dl, hl, hd, hdl, hi2⟩ := hr
      exact huffBlock_sat hl hd hdl _ s2 buf o ho (by omega) hi2
  refine R.Sat.bind hbody fun r hr => ?_
  obtain ⟨s2, b2, o2⟩ := r
  obtain ⟨q1, q2, q3, q4, q5⟩ := hr
  refine R.sat_pure ⟨q1.toInv, ?_, q2, q3, q4, q5⟩
  have := q1.left
  simp only at this ⊢
  omega

theorem blocks_sat (data : List Byte) (fuel : Nat) (s : Bs) (hi : Inv data s) (hf : L data s < fuel)
    (buf : List Byte) (o : Nat) (ho : o ≤ buf.length) :
    R.Sat (blocks data fuel s buf o) fun r => Inv data r.1 ∧ r.2.1.length = buf.length ∧
      o ≤ r.2.2 ∧ r.2.2 ≤ buf.length ∧ r.2.1.drop r.2.2 = buf.drop r.2.2 := by
  induction fuel generalizing s buf o with
  | zero => omega
  | succ fuel ih =>
    unfold blocks
    refine R.sat_ite (fun hoff => ?_) fun _ => R.sat_ok ⟨hi, rfl, Nat.le_refl _, ho, rfl⟩
    simp only
    refine R.Sat.bind (block_sat data s hi hoff buf o ho) fun r hr => ?_
    obtain ⟨last, s1, b1, o1⟩ := r
    obtain ⟨q1, q2, q3, q4, q5, q6⟩ := hr
    simp only at q1 q2 q3 q4 q5 q6 ⊢
    refine R.sat_ite (fun _ => R.sat_pure ⟨q1, q3, q4, q5, q6⟩) fun _ => ?_
    by_cases hend : s1.off < data.length
    · refine R.Sat.mono (ih s1 q1 (by omega) b1 o1 (by omega)) ?_
      rintro r ⟨p1, p2, p3, p4, p5⟩
      exact ⟨p1, by omega, by omega, by omega, by rw [p5, Lz.drop_later q6 p3]⟩
    · unfold blocks
      rw [if_neg hend]
      exact R.sat_ok ⟨q1, q3, q4, q5, q6⟩

/-! ## From the start of the compressed data -/

theorem wf_congr {p q : Nat} (h : p % 8 = q % 8) (bs : List Block) (hw : Wf p bs) : Wf q bs := by
  induction bs generalizing p q with
  | nil => trivial
  | cons b bs ih =>
    refine ⟨?_, ih (by omega) hw.2⟩
    have hb := hw.1
    cases b with
    | stored pad bytes =>
      simp only [Block.wf] at hb ⊢
      exact ⟨by omega, hb.2⟩
    | fixed ts => exact hb
    | dynamic d ts => exact hb

theorem decompressBitstream_ok (bs : List Block) (hne : bs ≠ []) (hw : Wf 0 bs) (hok : Ok bs)
    (hdist : ∀ b ∈ bs, HasDist b) (head data : List Byte) (junk : List Bool) (hdata : byteBits data = encode bs ++ junk)
    (buf : List Byte) (hbuf : (denote bs).length ≤ buf.length) :
    ∃ s, decompressBitstream (head ++ data) head.length buf
      = .ok (s, denote bs ++ buf.drop (denote bs).length, (denote bs).length) ∧ Inv (head ++ data) s ∧
        rem (head ++ data) s = junk := by
  have hi : Inv (head ++ data) ⟨head.length, 0, 0⟩ := ⟨by simp, by simp, by simp⟩
  have hrem : rem (head ++ data) ⟨head.length, 0, 0⟩ = encode bs ++ junk := by
    simp [rem, lsb, hdata]
  obtain ⟨s, e, h1, h2⟩ := blocks_ok (data := head ++ data) bs hne (8 * (head ++ data).length + 1) (8 * head.length) _ junk
    (wf_congr (by omega) bs hw) hdist hi hrem (by simp [L]; omega) (by simp [L]; omega) [] buf hok
    (by simpa [denote] using hbuf)
  exact ⟨s, by simpa [decompressBitstream, denote] using e, h1, h2⟩

theorem decompressBitstream_sat (data : List Byte) (start : Nat) (hs : start ≤ data.length) (buf : List Byte) :
    R.Sat (decompressBitstream data start buf) fun r => Inv data r.1 ∧ r.2.1.length = buf.length ∧
      r.2.2 ≤ buf.length ∧ r.2.1.drop r.2.2 = buf.drop r.2.2 := by
  refine R.Sat.mono (blocks_sat data _ ⟨start, 0, 0⟩ ⟨by simp, by simp, hs⟩ (by simp [L]; omega) buf 0 (by omega)) ?_
  rintro r ⟨h1, h2, _, h4, h5⟩
  exact ⟨h1, h2, h4, h5⟩

end Keramics.Deflate

namespace Keramics.Props
open Keramics.Spec.Deflate

/-- C27, decoding: a byte sequence whose bits are the encoding of well-formed blocks, the last one
marked as such, followed by anything, decompresses into any buffer that is large enough to the bytes
the blocks denote; the rest of the buffer is left as it was. The full property also has dynamic blocks
without any distance code, which `HasDist` excludes: see `C27_violated_no_distances`. -/
theorem C27_deflate_decode_partial (bs : List Block) (hne : bs ≠ []) (hw : Wf 0 bs) (hok : Ok bs)
    (hdist : ∀ b ∈ bs, Deflate.HasDist b) (data : List Byte) (junk : List Bool)
    (hdata : byteBits data = encode bs ++ junk) (buf : List Byte) (hbuf : (denote bs).length ≤ buf.length) :
    Deflate.decompress data buf = .ok (denote bs ++ buf.drop (denote bs).length, (denote bs).length) := by
  obtain ⟨s, e, _⟩ := Deflate.decompressBitstream_ok bs hne hw hok hdist [] data junk hdata buf hbuf
  unfold Deflate.decompress
  rw [List.nil_append] at e
  rw [show ([] : List Byte).length = 0 from rfl] at e
  rw [e, R.ok_bind]
  rfl

/-- C27, arbitrary input: decompression of any bytes into any buffer does not panic, keeps the buffer's
length, reports at most that length, and leaves the bytes after the reported size as they were. -/
theorem C27_deflate_bounds (data buf : List Byte) :
    Deflate.decompress data buf ≠ .panic ∧
    ∀ out size, Deflate.decompress data buf = .ok (out, size) →
      out.length = buf.length ∧ size ≤ buf.length ∧ out.drop size = buf.drop size := by
  have h : R.Sat (Deflate.decompress data buf) fun r => r.1.length = buf.length ∧ r.2 ≤ buf.length ∧
      r.1.drop r.2 = buf.drop r.2 := by
    unfold Deflate.decompress
    refine R.Sat.bind (Deflate.decompressBitstream_sat data 0 (by omega) buf) fun r hr => ?_
    exact R.sat_pure hr.2
  refine ⟨h.ne_panic, fun out size e => ?_⟩
  exact h.of_ok e

/-- The codes of a block that has the byte `a` and the end of the block, and no distance code. -/
def noDistances : Spec.Deflate.Dynamic where
  literals := 257
  distances := 1
  codes := 18
  lengths := [2, 2, 0, 0, 0, 0, 0, 0, 0, 0, 0, 0, 0, 0, 0, 0, 0, 0, 1]
  items := [.zerosLong 97, .len 1, .zerosLong 138, .zerosLong 20, .len 1, .len 0]

/-- C27 fails for dynamic blocks without distance codes: RFC 1951 says that "One distance code of zero
bits means that there are no distance codes used at all (the data is all literals)", and the data is
refused. -/
theorem C27_violated_no_distances :
    let bs := [Block.dynamic noDistances [.literal 97#8]]
    let data : List Byte := [5, 192, 129, 8, 0, 0, 0, 0, 32, 214, 253, 37, 78]
    Wf 0 bs ∧ Ok bs ∧ denote bs = [97#8] ∧ (∃ junk, byteBits data = encode bs ++ junk) ∧
      Deflate.decompress data [0#8] = .err := by
  refine ⟨⟨⟨⟨⟨by decide, by decide, by decide, by decide, by decide, by decide +kernel, ?_, ?_, ?_,
    by decide +kernel, ?_, ?_⟩, Or.inr (by unfold Spec.Deflate.Dynamic.noDist; decide +kernel)⟩, ?_⟩, trivial⟩, ?_, ?_, ⟨[false], ?_⟩, ?_⟩
  · unfold Spec.Huffman.Valid Spec.Huffman.Kraft; decide +kernel
  · intro it hit
    simp only [noDistances, List.mem_cons, List.not_mem_nil, or_false] at hit
    rcases hit with rfl | rfl | rfl | rfl | rfl | rfl <;>
      exact ⟨by simp [Item.ok], by unfold Spec.Huffman.Coded; decide +kernel⟩
  · intro n; simp [noDistances]
  · unfold Spec.Huffman.Valid Spec.Huffman.Kraft; decide +kernel
  · unfold Spec.Huffman.Coded; decide +kernel
  · intro t ht
    simp only [List.mem_cons, List.not_mem_nil, or_false] at ht
    subst ht
    unfold Token.wf Spec.Huffman.Coded; decide +kernel
  · simp [Ok, Block.ops, Token.op, Spec.Lz.Ok, Spec.Lz.Op.ok]
  · decide +kernel
  · decide +kernel
  · decide +kernel

/-- The codes of a block with the bytes `a` and `b`, the end of the block, matches of length 3 and the
distance 2. -/
def oneDistance : Spec.Deflate.Dynamic where
  literals := 258
  distances := 2
  codes := 18
  lengths := [2, 2, 2, 0, 0, 0, 0, 0, 0, 0, 0, 0, 0, 0, 0, 0, 0, 0, 2]
  items := [.zerosLong 97, .len 2, .len 2, .zerosLong 138, .zerosLong 19, .len 2, .len 2, .len 0, .len 1]

/-- A fixed block with an overlapping match, a stored block, and a dynamic block with a match that
reaches into the stored one. -/
example :
    let bs := [Block.fixed [.literal 97#8, .literal 200#8, .copy 1 0 1 0], .stored (List.replicate 6 true) [1#8, 2#8],
      .dynamic oneDistance [.literal 98#8, .copy 0 0 1 0]]
    let data : List Byte := [74, 60, 1, 130, 0, 252, 2, 0, 253, 255, 1, 2, 13, 193, 1, 9, 0, 0, 0, 128, 160, 173, 245, 127, 68, 161, 11]
    Wf 0 bs ∧ Ok bs ∧ (∀ b ∈ bs, Deflate.HasDist b) ∧ (∃ junk, byteBits data = encode bs ++ junk) ∧
      Deflate.decompress data (List.replicate 13 9#8) = .ok ([0x61, 0xc8, 0x61, 0xc8, 0x61, 0xc8, 1, 2, 0x62, 2, 0x62, 2, 9], 12) := by
  have hd : oneDistance.distCode := by
    unfold Spec.Deflate.Dynamic.distCode Spec.Huffman.Valid Spec.Huffman.Kraft; decide +kernel
  refine ⟨⟨?_, ⟨by decide +kernel, by decide⟩, ⟨⟨⟨by decide, by decide, by decide, by decide, by decide, by decide +kernel, ?_, ?_, ?_,
    by decide +kernel, ?_, ?_⟩, Or.inl hd⟩, ?_⟩, trivial⟩, ?_, ?_, ⟨List.replicate 3 false, by decide +kernel⟩, by decide +kernel⟩
  · intro t ht
    simp only [List.mem_cons, List.not_mem_nil, or_false] at ht
    rcases ht with rfl | rfl | rfl <;> unfold Token.wf Spec.Huffman.Coded <;> decide +kernel
  · unfold Spec.Huffman.Valid Spec.Huffman.Kraft; decide +kernel
  · intro it hit
    simp only [oneDistance, List.mem_cons, List.not_mem_nil, or_false] at hit
    rcases hit with rfl | rfl | rfl | rfl | rfl | rfl | rfl | rfl | rfl <;>
      exact ⟨by simp [Item.ok], by unfold Spec.Huffman.Coded; decide +kernel⟩
  · intro n; simp [oneDistance]
  · unfold Spec.Huffman.Valid Spec.Huffman.Kraft; decide +kernel
  · unfold Spec.Huffman.Coded; decide +kernel
  · intro t ht
    simp only [List.mem_cons, List.not_mem_nil, or_false] at ht
    rcases ht with rfl | rfl <;> unfold Token.wf Spec.Huffman.Coded <;> decide +kernel
  · simp [Ok, Block.ops, Token.op, Spec.Lz.Ok, Spec.Lz.Op.ok, Spec.Lz.Op.run, distanceBase, lengthBase, Spec.Lz.copy,
      distanceExtra, lengthExtra]
  · intro b hb
    simp only [List.mem_cons, List.not_mem_nil, or_false] at hb
    rcases hb with rfl | rfl | rfl
    · trivial
    · trivial
    · exact hd

end Keramics.Props
