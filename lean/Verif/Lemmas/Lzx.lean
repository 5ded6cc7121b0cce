import Verif.Lemmas.LzxBits
import Verif.Props.Deflate

/-! # LZX decompression: blocks and their codes -/

namespace Keramics.Lzx
open Keramics.Spec.Huffman Keramics.Huffman Keramics.Spec.Lz
open Keramics.Spec.Lzx (wordBits Token Item Lengths Body Block State tokenOps tokensSize tokensRecent matchLength)
open Keramics.Bzip2 (bits_length bits_add bits_mod bits_join bits_inj bits_zero)
open Keramics.Deflate (enc enc_append enc_length enc_replicate lens_enc fill_ok fill_sat build_sat new_symbols)

/-! ## Code sizes -/

theorem readSizes_ok {data : List Byte} {k : Nat} (hk : k ≤ 8) (l : List Nat) : ∀ {s : Bs} {rest : List Bool},
    (∀ x ∈ l, x < 2 ^ k) → At data s (l.flatMap (bits k) ++ rest) →
    ∃ s', readSizes data k l.length s = .ok (enc l, s') ∧ At data s' rest := by
  induction l with
  | nil => intro s rest _ h; exact ⟨s, rfl, h⟩
  | cons x l ih =>
    intro s rest hx h
    rw [List.flatMap_cons, List.append_assoc] at h
    obtain ⟨s1, e1, h1⟩ := getValue_ok (by omega) h (hx x (by simp))
    obtain ⟨s2, e2, h2⟩ := ih (fun y hy => hx y (by simp [hy])) h1
    refine ⟨s2, ?_, h2⟩
    rw [List.length_cons]
    unfold readSizes
    simp only [e1, R.ok_bind, e2, R.pure_eq]
    rfl

theorem readSizes_spec {data : List Byte} {k : Nat} (hk : k ≤ 8) (count : Nat) : ∀ {s : Bs}, Inv data s →
    ∃ l s', readSizes data k count s = .ok (enc l, s') ∧ l.length = count ∧ (∀ x ∈ l, x < 2 ^ k) ∧ Took data s (l.flatMap (bits k)) s' := by
  induction count with
  | zero => intro s h; exact ⟨[], s, rfl, rfl, by simp, Took.refl h⟩
  | succ count ih =>
    intro s h
    obtain ⟨v, s1, e1, hv, t1⟩ := getValue_spec (want := k) (by omega) h
    obtain ⟨l, s2, e2, hl, hl', t2⟩ := ih t1.1
    refine ⟨v :: l, s2, ?_, by simp [hl], ?_, ?_⟩
    · unfold readSizes
      simp only [e1, R.ok_bind, e2, R.pure_eq]
      rfl
    · intro x hx
      rcases List.mem_cons.1 hx with rfl | hx
      · exact hv
      · exact hl' x hx
    · rw [List.flatMap_cons]
      exact t1.trans t2

theorem delta_ok {sizes : List Byte} {i v d : Nat} (hg : R.get sizes i = .ok (BitVec.ofNat 8 v)) (hv : v ≤ 16) (hd : d ≤ 16) :
    delta sizes i d = .ok (BitVec.ofNat 8 ((v + 17 - d) % 17)) := by
  unfold delta
  rw [hg, R.ok_bind]
  have : (BitVec.ofNat 8 v).toNat = v := by rw [BitVec.toNat_ofNat]; omega
  simp only [this, R.pure_eq, R.ok.injEq]
  apply BitVec.eq_of_toNat_eq
  rw [BitVec.toNat_ofInt, BitVec.toNat_ofNat]
  split <;> omega

theorem get_tail (old out : List Nat) (h : out.length < old.length) :
    R.get (enc out ++ (enc old).drop out.length) out.length = .ok (BitVec.ofNat 8 (old.getD out.length 0)) := by
  rw [R.get_ok (by simp; omega), List.getElem_append_right (by simp)]
  simp [enc, List.getD_eq_getElem?_getD, List.getElem?_eq_getElem h]

theorem item_length (old out : List Nat) (it : Item) : out.length ≤ (it.run old out).length := by
  cases it <;> simp [Item.run]

theorem foldl_length (old : List Nat) (items : List Item) : ∀ out : List Nat, out.length ≤ (items.foldl (Item.run old) out).length := by
  induction items with
  | nil => intro out; exact Nat.le_refl _
  | cons it items ih => intro out; exact Nat.le_trans (item_length old out it) (ih _)

theorem foldl_le16 {old : List Nat} (items : List Item) : ∀ out : List Nat, (∀ x ∈ out, x ≤ 16) →
    ∀ x ∈ items.foldl (Item.run old) out, x ≤ 16 := by
  induction items with
  | nil => intro out h; exact h
  | cons it items ih =>
    intro out h
    refine ih _ ?_
    intro x hx
    cases it <;> simp only [Item.run, List.mem_append, List.mem_singleton, List.mem_replicate] at hx <;>
      rcases hx with hx | hx <;> first | exact h x hx | omega

theorem sizesLoop_ok {data : List Byte} {t : Tree} {pre : List Nat} (ht : IsTree t pre) {old : List Nat} (hold : ∀ x ∈ old, x ≤ 16) (items : List Item) :
    ∀ (fuel : Nat) (out : List Nat) (s : Bs) (rest : List Bool), old.length ≤ out.length + fuel → (∀ it ∈ items, it.ok pre) →
    (items.foldl (Item.run old) out).length = old.length → At data s (items.flatMap (Item.bits pre) ++ rest) →
    ∃ s', sizesLoop data t old.length fuel (enc out ++ (enc old).drop out.length) out.length s
        = .ok (enc (items.foldl (Item.run old) out), s') ∧ At data s' rest := by
  induction items with
  | nil =>
    intro fuel out s rest hf hok htot h
    simp only [List.foldl_nil] at htot ⊢
    refine ⟨s, ?_, h⟩
    have e : enc out ++ (enc old).drop out.length = enc out := by
      rw [List.drop_eq_nil_of_le (by simp; omega), List.append_nil]
    rw [e]
    cases fuel <;> unfold sizesLoop <;> rw [if_neg (by omega)]
  | cons it items ih =>
    intro fuel out s rest hf hok htot h
    have hit := hok it (by simp)
    rw [List.foldl_cons] at htot ⊢
    rw [List.flatMap_cons, List.append_assoc] at h
    have hm := foldl_length old items (it.run old out)
    have hpos : out.length < (it.run old out).length := by
      cases it <;> simp [Item.run, Item.ok] at hit ⊢ <;> omega
    obtain ⟨fuel, rfl⟩ : ∃ f, fuel = f + 1 := ⟨fuel - 1, by omega⟩
    have hget := get_tail old out (by omega)
    have hv : old.getD out.length 0 ≤ 16 := by
      rw [List.getD_eq_getElem?_getD, List.getElem?_eq_getElem (show out.length < old.length by omega)]
      exact hold _ (List.getElem_mem _)
    -- a run of `n` times `v`
    have run : ∀ (n v : Nat) (s2 : Bs), n = (it.run old out).length - out.length → it.run old out = out ++ List.replicate n v →
        At data s2 (items.flatMap (Item.bits pre) ++ rest) →
        ∃ s', ((do
          let room ← R.subU old.length out.length
          let count := if n > room then room else n
          let (sizes, i) ← Deflate.fill (BitVec.ofNat 8 v) count (enc out ++ (enc old).drop out.length) out.length
          pure (sizes, i, s2)) : R (List Byte × Nat × Bs)) =
            .ok (enc (it.run old out) ++ (enc old).drop (it.run old out).length, (it.run old out).length, s2) ∧
          sizesLoop data t old.length fuel (enc (it.run old out) ++ (enc old).drop (it.run old out).length) (it.run old out).length s2
            = .ok (enc (items.foldl (Item.run old) (it.run old out)), s') ∧ At data s' rest := by
      intro n v s2 hn hrun h2
      obtain ⟨s', e', h'⟩ := ih fuel (it.run old out) s2 rest (by omega) (fun i hi => hok i (by simp [hi])) htot h2
      refine ⟨s', ?_, e', h'⟩
      have hfill := fill_ok (BitVec.ofNat 8 v) n (enc out) ((enc old).drop out.length) (by simp; omega)
      rw [enc_length] at hfill
      rw [R.subU_ok (by omega), R.ok_bind]
      simp only
      rw [if_neg (by omega), hfill, R.ok_bind]
      simp only [R.pure_eq, R.ok.injEq, Prod.mk.injEq, and_true]
      refine ⟨?_, by omega⟩
      rw [hrun, enc_append, enc_replicate, List.drop_drop, List.length_append, List.length_replicate]
    unfold sizesLoop
    rw [if_pos (by omega)]
    cases it with
    | diff d =>
      simp only [Item.bits, Item.ok] at h hit
      obtain ⟨s1, e1, h1⟩ := symbol_ok ht hit.2 h
      obtain ⟨s', e', h'⟩ := ih fuel _ s1 rest (by omega) (fun i hi => hok i (by simp [hi])) htot h1
      refine ⟨s', ?_, h'⟩
      simp only [e1, R.ok_bind]
      unfold sizesStep
      rw [if_pos (by omega), delta_ok hget hv hit.1, R.ok_bind, R.set_ok (by simp; omega), R.ok_bind]
      simp only [R.pure_eq, R.ok_bind]
      have e2 : (enc out ++ (enc old).drop out.length).set out.length (BitVec.ofNat 8 ((old.getD out.length 0 + 17 - d) % 17))
          = enc (Item.run old out (.diff d)) ++ (enc old).drop (Item.run old out (.diff d)).length := by
        rw [List.set_append_right _ _ (by simp), enc_length, Nat.sub_self, List.drop_eq_getElem_cons (by simp; omega)]
        simp only [Item.run, enc_append, List.length_append, List.length_singleton, List.set_cons_zero, List.append_assoc]
        rfl
      have e3 : out.length + 1 = (Item.run old out (.diff d)).length := by simp [Item.run]
      rw [e2, e3, e']
    | zeros n =>
      simp only [Item.bits, Item.ok, List.append_assoc] at h hit
      obtain ⟨s1, e1, h1⟩ := symbol_ok ht hit.2.2 h
      obtain ⟨s2, e2, h2⟩ := getValue_ok (by omega) h1 (by omega)
      obtain ⟨s', e3, e4, h'⟩ := run n 0 s2 (by simp [Item.run]) rfl h2
      refine ⟨s', ?_, h'⟩
      simp only [e1, R.ok_bind]
      unfold sizesStep times repeated
      rw [if_neg (by omega), if_pos rfl, e2, R.ok_bind]
      simp only [R.pure_eq, R.ok_bind, if_pos (show (17 : Nat) ≠ 19 by omega), show n - 4 + 4 = n by omega]
      simp only [R.pure_eq] at e3
      rw [show (0 : Byte) = BitVec.ofNat 8 0 from rfl, e3, R.ok_bind]
      exact e4
    | zerosLong n =>
      simp only [Item.bits, Item.ok, List.append_assoc] at h hit
      obtain ⟨s1, e1, h1⟩ := symbol_ok ht hit.2.2 h
      obtain ⟨s2, e2, h2⟩ := getValue_ok (by omega) h1 (by omega)
      obtain ⟨s', e3, e4, h'⟩ := run n 0 s2 (by simp [Item.run]) rfl h2
      refine ⟨s', ?_, h'⟩
      simp only [e1, R.ok_bind]
      unfold sizesStep times repeated
      rw [if_neg (by omega), if_neg (by omega), if_pos rfl, e2, R.ok_bind]
      simp only [R.pure_eq, R.ok_bind, if_pos (show (18 : Nat) ≠ 19 by omega), show n - 20 + 20 = n by omega]
      simp only [R.pure_eq] at e3
      rw [show (0 : Byte) = BitVec.ofNat 8 0 from rfl, e3, R.ok_bind]
      exact e4
    | same n d =>
      simp only [Item.bits, Item.ok, List.append_assoc] at h hit
      obtain ⟨w1, w2, w3, w4, w5⟩ := hit
      obtain ⟨s1, e1, h1⟩ := symbol_ok ht w4 h
      obtain ⟨s2, e2, h2⟩ := getValue_ok (by omega) h1 (by omega)
      obtain ⟨s3, e5, h3⟩ := symbol_ok ht w5 h2
      obtain ⟨s', e3, e4, h'⟩ := run n ((old.getD out.length 0 + 17 - d) % 17) s3 (by simp [Item.run]) rfl h3
      refine ⟨s', ?_, h'⟩
      simp only [e1, R.ok_bind]
      unfold sizesStep times repeated
      rw [if_neg (by omega), if_neg (by omega), if_neg (by omega), if_pos rfl, e2, R.ok_bind]
      simp only [R.pure_eq, R.ok_bind, if_neg (show ¬ (19 : Nat) ≠ 19 by omega), show n - 4 + 4 = n by omega, e5, R.require_true (show d ≤ 17 by omega),
        delta_ok hget hv w3]
      simp only [R.pure_eq] at e3
      rw [e3, R.ok_bind]
      exact e4

theorem tree_ok {n m : Nat} (hn : n ≤ 65535) {l : List Nat} (hl : l.length ≤ n) (hs : ∀ x ∈ l, x < 256) (hv : Valid m l) :
    ∃ t, build (new n m) (enc l) = .ok t ∧ IsTree t l := by
  obtain ⟨t, h, _, _, h'⟩ := build_ok (new n m) (enc l) (by simp; omega) (by simpa [new] using hl) (by rw [lens_enc hs]; exact hv)
  rw [lens_enc hs] at h'
  exact ⟨t, h, h'⟩

theorem readCodeSizes_ok {data : List Byte} {old : List Nat} (hold : ∀ x ∈ old, x ≤ 16) {d : Lengths} (hd : d.wf old) {s : Bs} {rest : List Bool}
    (h : At data s (d.bits ++ rest)) :
    ∃ s', readCodeSizes data (enc old) old.length s = .ok (enc (d.expand old), s') ∧ At data s' rest := by
  unfold Lengths.bits at h
  rw [List.append_assoc] at h
  have h15 := hd.valid.1
  obtain ⟨s1, e1, h1⟩ := readSizes_ok (by omega) d.pre (fun x hx => by have := h15 x hx; omega) h
  rw [hd.pre] at e1
  obtain ⟨t, e2, ht⟩ := tree_ok (n := 20) (by omega) (by rw [hd.pre]) (fun x hx => by have := h15 x hx; omega) hd.valid
  obtain ⟨s2, e3, h2⟩ := sizesLoop_ok ht hold d.items old.length [] s1 rest (by simp) hd.items hd.total h1
  refine ⟨s2, ?_, h2⟩
  unfold readCodeSizes
  simp only [e1, R.ok_bind, e2]
  exact e3

theorem expand_le16 (old : List Nat) (d : Lengths) : ∀ x ∈ d.expand old, x ≤ 16 := foldl_le16 d.items [] (by simp)

/-! ## Matches -/

theorem footer_get {slot : Nat} (h : slot < 30) : R.get footerBits slot = .ok (Spec.Lzx.footer slot) := by
  have : ∀ slot < 30, R.get footerBits slot = .ok (Spec.Lzx.footer slot) := by decide +kernel
  exact this slot h

theorem base_get {slot : Nat} (h : slot < 30) : R.get offsetBase slot = .ok ((Spec.Lzx.base slot : Int) - 2) := by
  have : ∀ slot < 30, R.get offsetBase slot = .ok ((Spec.Lzx.base slot : Int) - 2) := by decide +kernel
  exact this slot h

theorem footer_le {slot : Nat} (h : slot < 30) : Spec.Lzx.footer slot ≤ 13 := by
  unfold Spec.Lzx.footer; split <;> omega

theorem footer_ge {slot : Nat} (h : slot < 30) : 3 ≤ Spec.Lzx.footer slot ↔ 8 ≤ slot := by
  unfold Spec.Lzx.footer; split <;> omega

theorem base_bounds {slot : Nat} (h : slot < 30) (h3 : 3 ≤ slot) : 3 ≤ Spec.Lzx.base slot ∧ Spec.Lzx.base slot ≤ 32768 := by
  have : ∀ slot < 30, 3 ≤ slot → 3 ≤ Spec.Lzx.base slot ∧ Spec.Lzx.base slot ≤ 32768 := by decide +kernel
  exact this slot h h3

/-- The recent distances as the model keeps them. -/
def ofSpec (r : Spec.Lzx.Recent) : Recent := ⟨r.r0, r.r1, r.r2⟩

/-- The trees of an aligned block. -/
def IsAligned : Option Tree → Option (List Nat) → Prop
  | none, none => True
  | some t, some al => IsTree t al ∧ al.length ≤ 8
  | _, _ => False

theorem readDistance_ok {data : List Byte} {aligned : Option Tree} {al : Option (List Nat)} (ha : IsAligned aligned al) {slot e : Nat}
    (hs : slot < 30) (he : e < 2 ^ Spec.Lzx.footer slot) (hc : Spec.Lzx.footerCoded al slot e) (r : Spec.Lzx.Recent) {s : Bs} {rest : List Bool}
    (h : At data s (Spec.Lzx.footerBits al slot e ++ rest)) :
    ∃ s', readDistance data aligned slot (ofSpec r) s = .ok ((r.next slot e).r0, ofSpec (r.next slot e), s') ∧ At data s' rest := by
  unfold readDistance
  have hf := footer_le hs
  by_cases h3 : slot < 3
  · rw [if_pos h3]
    have hz : Spec.Lzx.footer slot = 0 := by unfold Spec.Lzx.footer; rw [if_pos (by omega)]
    have hb : Spec.Lzx.footerBits al slot e = [] := by
      unfold Spec.Lzx.footerBits
      rw [hz]
      cases al
      · rfl
      · simp only; rw [if_neg (by omega)]; rfl
    rw [hb, List.nil_append] at h
    refine ⟨s, ?_, h⟩
    have : slot = 0 ∨ slot = 1 ∨ slot = 2 := by omega
    rcases this with rfl | rfl | rfl <;> rfl
  · rw [if_neg h3]
    have hnext : r.next slot e = ⟨Spec.Lzx.base slot + e - 2, r.r0, r.r1⟩ := by
      unfold Spec.Lzx.Recent.next
      split <;> first | omega | rfl
    have hbase := base_bounds hs (by omega)
    have h13 : 2 ^ Spec.Lzx.footer slot ≤ 2 ^ 13 := Nat.pow_le_pow_right (by omega) hf
    have key : ∃ k v s1 s', footer aligned slot = .ok k ∧ getValue data k s = .ok (v, s1) ∧ alignedBits data aligned slot v s1 = .ok (e, s') ∧ At data s' rest := by
      unfold footer alignedBits
      rw [footer_get hs]
      cases aligned with
      | none =>
        cases al with
        | some _ => exact ha.elim
        | none =>
          simp only [Spec.Lzx.footerBits] at h
          obtain ⟨s1, e1, h1⟩ := getValue_ok (by omega) h he
          exact ⟨_, e, s1, s1, by simp, e1, rfl, h1⟩
      | some t =>
        cases al with
        | none => exact ha.elim
        | some al =>
          simp only [Spec.Lzx.footerBits, Spec.Lzx.footerCoded] at h hc
          by_cases h8 : 3 ≤ Spec.Lzx.footer slot
          · rw [if_pos h8, List.append_assoc] at h
            have hq : e / 8 < 2 ^ (Spec.Lzx.footer slot - 3) := by
              rw [Nat.div_lt_iff_lt_mul (by omega), show (8 : Nat) = 2 ^ 3 from rfl, ← Nat.pow_add, Nat.sub_add_cancel h8]
              exact he
            obtain ⟨s1, e1, h1⟩ := getValue_ok (by omega) h hq
            obtain ⟨s2, e2, h2⟩ := symbol_ok ha.1 (hc h8) h1
            have h8' := (footer_ge hs).1 h8
            refine ⟨Spec.Lzx.footer slot - 3, e / 8, s1, s2, ?_, e1, ?_, h2⟩
            · rw [R.ok_bind, if_pos ⟨rfl, h8'⟩, R.subU_ok h8]
            · simp only
              rw [if_pos h8', e2, R.ok_bind]
              simp only [R.pure_eq, R.ok.injEq, Prod.mk.injEq, and_true]
              rw [Nat.shiftLeft_eq, Nat.mod_eq_of_lt (by omega), ← Nat.shiftLeft_eq, shl_or (k := 3) (by omega)]
              omega
          · rw [if_neg h8] at h
            have h8' := fun h' => h8 ((footer_ge hs).2 h')
            obtain ⟨s1, e1, h1⟩ := getValue_ok (by omega) h he
            refine ⟨_, e, s1, s1, ?_, e1, ?_, h1⟩
            · rw [R.ok_bind, if_neg (fun h' => h8' h'.2), R.pure_eq]
            · simp only
              rw [if_neg h8']
    obtain ⟨k, v, s1, s', e1, e2, e3, h'⟩ := key
    refine ⟨s', ?_, h'⟩
    simp only [e1, R.ok_bind, e2, e3, base_get hs]
    rw [R.check_true (by omega), R.ok_bind, hnext]
    have hd : (((e : Int) + ((Spec.Lzx.base slot : Int) - 2)) % 2 ^ 32).toNat = Spec.Lzx.base slot + e - 2 := by
      rw [Int.emod_eq_of_lt (by omega) (by omega)]
      omega
    rw [hd]
    rfl

theorem readLength_ok {data : List Byte} {lengths : Tree} {ll : List Nat} (hl : IsTree lengths ll ∨ ∀ l ∈ ll, l = 0) {slot h l : Nat} (hh : h ≤ 7) (hc : h = 7 → Coded ll l)
    {s : Bs} {rest : List Bool} (hat : At data s ((if h = 7 then codeBits ll l else []) ++ rest)) :
    ∃ s', readLength data lengths (256 + 8 * slot + h) s = .ok (matchLength h l, s') ∧ At data s' rest := by
  unfold readLength matchLength
  by_cases h7 : h = 7
  · subst h7
    rw [if_pos rfl] at hat
    rcases hl with hl | hl
    · obtain ⟨s1, e1, h1⟩ := symbol_ok hl (hc rfl) hat
      refine ⟨s1, ?_, h1⟩
      rw [if_pos (by omega), e1, R.ok_bind, if_pos rfl]
      simp only [R.pure_eq]
      congr 2
      omega
    · have := hc rfl
      unfold Coded at this
      have hlt := coded_lt (hc rfl)
      rw [List.getD_eq_getElem?_getD, List.getElem?_eq_getElem hlt, Option.getD_some, hl _ (List.getElem_mem _)] at this
      omega
  · rw [if_neg h7, List.nil_append] at hat
    refine ⟨s, ?_, hat⟩
    rw [if_neg (by omega), if_neg h7]
    congr 2
    omega

theorem matchLength_pos (h l : Nat) : 2 ≤ matchLength h l := by unfold matchLength; split <;> omega

theorem token_run_length (out : List Byte) (r : Spec.Lzx.Recent) (t : Token) :
    ((t.op r).run out).length = out.length + tokensSize [t] := by
  cases t with
  | literal b => simp [Token.op, Op.run, tokensSize]
  | copy slot e h l => simp [Token.op, Op.run, tokensSize]

theorem tokensSize_cons (t : Token) (ts : List Token) : tokensSize (t :: ts) = tokensSize [t] + tokensSize ts := by
  cases t <;> simp [tokensSize]

theorem tokensSize_pos (t : Token) : 1 ≤ tokensSize [t] := by
  cases t with
  | literal b => simp [tokensSize]
  | copy slot e h l => have := matchLength_pos h l; simp only [tokensSize]; omega

theorem tokens_run_length (ts : List Token) : ∀ (out : List Byte) (r : Spec.Lzx.Recent),
    (run out (tokenOps r ts)).length = out.length + tokensSize ts := by
  induction ts with
  | nil => intro out r; rfl
  | cons t ts ih =>
    intro out r
    rw [tokenOps, run, ih, token_run_length, tokensSize_cons t ts]
    omega

theorem huffBlock_ok {data : List Byte} {literals lengths : Tree} {ml ll : List Nat} (hm : IsTree literals ml) (hl : IsTree lengths ll ∨ ∀ l ∈ ll, l = 0)
    {aligned : Option Tree} {al : Option (List Nat)} (ha : IsAligned aligned al) (ts : List Token) :
    ∀ (fuel : Nat) (s : Bs) (r : Spec.Lzx.Recent) (out room : List Byte) (rest : List Bool) (stop : Nat), stop = out.length + tokensSize ts →
    tokensSize ts ≤ fuel → tokensSize ts ≤ room.length → (∀ t ∈ ts, t.wf ml ll al) → Spec.Lz.Ok out (tokenOps r ts) →
    At data s (ts.flatMap (Token.bits ml ll al) ++ rest) →
    ∃ s', huffBlock data literals lengths aligned stop fuel s (ofSpec r) (out ++ room) out.length =
      .ok (s', ofSpec (tokensRecent r ts), run out (tokenOps r ts) ++ room.drop (tokensSize ts), out.length + tokensSize ts) ∧ At data s' rest := by
  induction ts with
  | nil =>
    intro fuel s r out room rest stop hstop hf hroom hw hok h
    simp only [tokensSize] at *
    refine ⟨s, ?_, h⟩
    cases fuel <;> unfold huffBlock <;> rw [if_neg (by omega)] <;> simp [tokenOps, run, tokensRecent]
  | cons t ts ih =>
    intro fuel s r out room rest stop hstop hf hroom hw hok h
    have hwt := hw t (by simp)
    have hpos := tokensSize_pos t
    have hsz := tokensSize_cons t ts
    have hlen := token_run_length out r t
    obtain ⟨fuel, rfl⟩ : ∃ f, fuel = f + 1 := ⟨fuel - 1, by omega⟩
    rw [List.flatMap_cons, List.append_assoc] at h
    simp only [tokenOps, Spec.Lz.Ok] at hok
    -- one turn
    have key : ∃ symbol s0 s1, decodeSymbol (getValue data 1) literals s = .ok (symbol, s0) ∧
        step data literals lengths aligned s0 (ofSpec r) (out ++ room) out.length symbol =
          .ok (s1, ofSpec (t.recent r), (t.op r).run out ++ room.drop (tokensSize [t]), out.length + tokensSize [t]) ∧
        At data s1 (ts.flatMap (Token.bits ml ll al) ++ rest) := by
      cases t with
      | literal b =>
        simp only [Token.bits, Token.wf] at h hwt
        obtain ⟨s0, e0, h0⟩ := symbol_ok hm hwt h
        have hb := b.isLt
        refine ⟨_, s0, s0, e0, ?_, h0⟩
        unfold step
        simp only [tokensSize] at hroom
        obtain ⟨x, room', rfl⟩ : ∃ x room', room = x :: room' := by
          cases room with
          | nil => simp at hroom
          | cons x room' => exact ⟨x, room', rfl⟩
        rw [if_pos (by omega), R.require_true (by simp), R.ok_bind, R.set_ok (by simp), R.ok_bind, List.set_append_right _ _ (by omega)]
        simp [Token.recent, Token.op, Op.run, tokensSize]
      | copy slot e x l =>
        simp only [Token.bits, Token.wf, List.append_assoc] at h hwt
        obtain ⟨w1, w2, w3, w4, w5, w6⟩ := hwt
        obtain ⟨s0, e0, h0⟩ := symbol_ok hm w4 h
        obtain ⟨s1, e1, h1⟩ := readLength_ok (slot := slot) hl w3 w5 h0
        obtain ⟨s2, e2, h2⟩ := readDistance_ok ha w1 w2 w6 r h1
        refine ⟨_, s0, s2, e0, ?_, h2⟩
        unfold step
        have hslot : (256 + 8 * slot + x - 256) / 8 = slot ∨ x = 8 := by omega
        have hs' : (256 + 8 * slot + x - 256) / 8 = slot := by omega
        simp only [Token.op, Op.ok] at hok
        simp only [tokensSize] at hroom
        simp only [if_neg (show ¬ 256 + 8 * slot + x < 256 by omega), e1, R.ok_bind, hs', e2]
        rw [R.require_true hok.1.2, R.ok_bind, R.subU_ok (by simp), R.ok_bind, R.require_true (by simp; omega), R.ok_bind,
          R.subU_ok hok.1.2, R.ok_bind, Lz.copyMatch_ok _ _ out room hok.1.1 hok.1.2 (by omega), R.ok_bind]
        simp [Token.recent, Token.op, Op.run, tokensSize]
    obtain ⟨symbol, s0, s1, e0, e1, h1⟩ := key
    obtain ⟨s', e', h'⟩ := ih fuel s1 (t.recent r) ((t.op r).run out) (room.drop (tokensSize [t])) rest stop (by omega) (by omega) (by simp; omega)
      (fun t ht => hw t (by simp [ht])) hok.2 h1
    refine ⟨s', ?_, h'⟩
    unfold huffBlock
    rw [if_pos (by omega)]
    simp only [e0, R.ok_bind, e1]
    rw [hlen] at e'
    rw [e', List.drop_drop, hsz]
    simp only [tokenOps, run, tokensRecent, List.foldl_cons, Nat.add_assoc]

end Keramics.Lzx
