import Verif.Lemmas.Lzx

/-! # LZX decompression: sequences of blocks and call instructions -/

namespace Keramics.Lzx
open Keramics.Spec.Huffman Keramics.Huffman Keramics.Spec.Lz
open Keramics.Spec.Lzx (wordBits Token Item Lengths Body Block State tokenOps tokensSize tokensRecent matchLength)
open Keramics.Bzip2 (bits_length bits_add bits_mod bits_join bits_inj bits_zero)
open Keramics.Deflate (enc enc_append enc_length enc_replicate lens_enc fill_ok fill_sat build_sat new_symbols)

/-! ## Uncompressed blocks -/

theorem wordBits_prefix (y : List Byte) : ∀ (x : List Byte) (rest : List Bool), y.length % 2 = 0 → wordBits x = wordBits y ++ rest →
    ∃ x', x = y ++ x' ∧ wordBits x' = rest := by
  fun_induction wordBits y with
  | case1 a b y ih =>
    intro x rest hy h
    match x with
    | [] => simp [wordBits, bits] at h
    | [_] => simp [wordBits, bits] at h
    | c :: d :: x =>
      rw [wordBits_cons, List.append_assoc, List.append_assoc, List.append_assoc] at h
      obtain ⟨h1, h2⟩ := List.append_inj h (by simp)
      obtain ⟨h3, h4⟩ := List.append_inj h2 (by simp)
      have e1 := bits_inj d.isLt b.isLt h1
      have e2 := bits_inj c.isLt a.isLt h3
      obtain ⟨x', rfl, h5⟩ := ih x rest (by simp only [List.length_cons] at hy; omega) h4
      rw [BitVec.eq_of_toNat_eq e1, BitVec.eq_of_toNat_eq e2]
      exact ⟨x', rfl, h5⟩
  | case2 y hy =>
    intro x rest hy' h
    match y with
    | [] => exact ⟨x, rfl, h⟩
    | [_] => simp at hy'
    | a :: b :: r => exact absurd rfl (hy a b r)

theorem le_eq (k : Nat) : ∀ v, Spec.Lzx.le k v = leBytes k v := by
  induction k with
  | zero => intro v; rfl
  | succ k ih =>
    intro v
    simp only [Spec.Lzx.le, leBytes, ih]
    congr 1
    apply BitVec.eq_of_toNat_eq
    simp

@[simp] theorem le_length (k v : Nat) : (Spec.Lzx.le k v).length = k := by
  induction k generalizing v with
  | zero => rfl
  | succ k ih => simp [Spec.Lzx.le, ih]

theorem leNat_le (k : Nat) : ∀ v, v < 256 ^ k → leNat (Spec.Lzx.le k v) = v := by
  induction k with
  | zero => intro v h; simp at h; subst h; rfl
  | succ k ih =>
    intro v h
    simp only [Spec.Lzx.le, leNat, BitVec.toNat_ofNat]
    rw [ih _ (by rw [Nat.div_lt_iff_lt_mul (by omega), ← Nat.pow_succ]; exact h)]
    omega

theorem u32le_at {data pre post : List Byte} {v off : Nat} (h : data = pre ++ (Spec.Lzx.le 4 v ++ post)) (ho : off = pre.length) (hv : v < 2 ^ 32) :
    u32le data off = .ok v := by
  subst h ho
  unfold u32le
  rw [R.slice_ok (by omega) (by simp), R.ok_bind]
  simp only [List.drop_left, Nat.add_sub_cancel_left]
  rw [List.take_left' (by simp), leNat_le 4 v (by simpa using hv)]
  rfl

theorem rawBlock_ok {data : List Byte} {s : Bs} {pad rest : List Bool} {r : Spec.Lzx.Recent} {bytes after : List Byte}
    (hpad : pad.length ≤ 15) (hmod : (rem data s).length % 16 = pad.length)
    (hr : 1 ≤ r.r0 ∧ 1 ≤ r.r1 ∧ 1 ≤ r.r2 ∧ r.r0 < 2 ^ 32 ∧ r.r1 < 2 ^ 32 ∧ r.r2 < 2 ^ 32) (hafter : after.length = bytes.length % 2)
    (h : At data s (pad ++ wordBits (Spec.Lzx.le 4 r.r0 ++ Spec.Lzx.le 4 r.r1 ++ Spec.Lzx.le 4 r.r2 ++ bytes ++ after) ++ rest))
    (st : St) (out room : List Byte) (hb : st.buf = out ++ room) (ho : st.o = out.length) (hroom : bytes.length ≤ room.length) :
    ∃ s', rawBlock data bytes.length st s = .ok ({ st with recent := ofSpec r, buf := (out ++ bytes) ++ room.drop bytes.length, o := out.length + bytes.length }, s') ∧
      (after = [] → At data s' rest) ∧ s'.off = s.off + 12 + bytes.length := by
  obtain ⟨hi, hrem⟩ := h
  have hn : s.n = pad.length := by
    rw [rem_length] at hmod
    have := hi.small
    omega
  unfold rem at hrem
  rw [List.append_assoc] at hrem
  obtain ⟨-, h2⟩ := List.append_inj hrem (by simp [hn])
  obtain ⟨x', hx, hx'⟩ := wordBits_prefix _ _ _ (by simp; omega) h2
  have hoff := hi.off
  have hdata : data = data.take s.off ++ (Spec.Lzx.le 4 r.r0 ++ (Spec.Lzx.le 4 r.r1 ++ (Spec.Lzx.le 4 r.r2 ++ (bytes ++ (after ++ x'))))) := by
    conv_lhs => rw [← List.take_append_drop s.off data, hx]
    simp only [List.append_assoc]
  have hlen := congrArg List.length hx
  simp only [List.length_drop, List.length_append, le_length] at hlen
  have e0 : u32le data s.off = .ok r.r0 := u32le_at hdata (by simp; omega) hr.2.2.2.1
  have e1 : u32le data (s.off + 4) = .ok r.r1 := u32le_at (pre := data.take s.off ++ Spec.Lzx.le 4 r.r0) (by rw [List.append_assoc]; exact hdata) (by simp; omega) hr.2.2.2.2.1
  have e2 : u32le data (s.off + 8) = .ok r.r2 := u32le_at (pre := data.take s.off ++ Spec.Lzx.le 4 r.r0 ++ Spec.Lzx.le 4 r.r1)
    (by rw [List.append_assoc, List.append_assoc]; exact hdata) (by simp; omega) hr.2.2.2.2.2
  have hmin : min bytes.length (data.length - (s.off + 12)) = bytes.length := by omega
  have hd12 : data.drop (s.off + 12) = bytes ++ (after ++ x') := by
    rw [← List.drop_drop, hx]
    simp only [List.append_assoc]
    rw [← List.append_assoc (Spec.Lzx.le 4 r.r0), ← List.append_assoc (Spec.Lzx.le 4 r.r0 ++ _), List.drop_left' (by simp)]
  refine ⟨⟨s.off + 12 + bytes.length, 0, 0⟩, ?_, ?_, rfl⟩
  · unfold rawBlock
    rw [R.subU_ok hoff, R.ok_bind, R.require_true (by omega), R.ok_bind, e0, R.ok_bind, e1, R.ok_bind, e2, R.ok_bind,
      R.require_true (by omega), R.ok_bind, R.require_true (by omega), R.ok_bind, R.require_true (by omega), R.ok_bind,
      R.subU_ok (by omega), R.ok_bind, hmin]
    have ec : copyBytes data bytes.length st.buf st.o { s with off := s.off + 12 } =
        .ok ((out ++ bytes) ++ room.drop bytes.length, ⟨s.off + 12 + bytes.length, 0, 0⟩) := by
      unfold copyBytes
      simp only
      rw [R.require_true (by omega), R.ok_bind, hb, ho, R.require_true (by simp; omega), R.ok_bind, R.slice_ok (by omega) (by omega), R.ok_bind,
        Nat.add_sub_cancel_left, hd12, List.take_left, Lz.splice_literal _ _ _ hroom, R.ok_bind]
      rfl
    rw [ec, R.ok_bind, ho]
    rfl
  · intro ha
    subst ha
    refine ⟨⟨by simp, by simp, by simp only; omega⟩, ?_⟩
    unfold rem
    simp only [bits, List.nil_append]
    rw [← List.drop_drop, hd12, List.drop_left, List.nil_append, hx']

/-! ## Coded blocks -/

/-- The state of the model after some blocks. -/
structure StIs (st : St) (ss : State) (out room : List Byte) : Prop where
  main1 : st.main1 = enc ss.literals
  main2 : st.main2 = enc ss.matches_
  match_ : st.match_ = enc ss.lengths
  recent : st.recent = ofSpec ss.recent
  buf : st.buf = out ++ room
  o : st.o = out.length
  l1 : ss.literals.length = 256
  l2 : ss.matches_.length = 240
  l3 : ss.lengths.length = 249
  s1 : ∀ x ∈ ss.literals, x ≤ 16
  s2 : ∀ x ∈ ss.matches_, x ≤ 16
  s3 : ∀ x ∈ ss.lengths, x ≤ 16

theorem readAligned_ok {data : List Byte} {al : Option (List Nat)} (hal : Spec.Lzx.alignedWf al) (a b c : Lengths) (ts : List Token) {s : Bs} {rest : List Bool}
    (h : At data s (Spec.Lzx.alignedBits al ++ rest)) :
    ∃ t s', readAligned data (Body.coded al a b c ts).type s = .ok (t, s') ∧ IsAligned t al ∧ At data s' rest := by
  cases al with
  | none => exact ⟨none, s, rfl, trivial, h⟩
  | some al =>
    obtain ⟨h8, hv⟩ := hal
    have h7 := hv.1
    obtain ⟨s1, e1, h1⟩ := readSizes_ok (k := 3) (by omega) al (fun x hx => by have := h7 x hx; omega) h
    rw [h8] at e1
    have hv' : Valid 16 al := by
      refine ⟨fun l hl => by have := h7 l hl; omega, hv.2.1, ?_⟩
      have hk := hv.2.2
      unfold Kraft at hk ⊢
      have : ((al.filter (0 < ·)).map fun l => 2 ^ (16 - l)).sum = ((al.filter (0 < ·)).map fun l => 2 ^ (7 - l)).sum * 2 ^ 9 := by
        have : ∀ l : List Nat, (∀ x ∈ l, x ≤ 7) → (l.map fun x => 2 ^ (16 - x)).sum = (l.map fun x => 2 ^ (7 - x)).sum * 2 ^ 9 := by
          intro l
          induction l with
          | nil => intro _; rfl
          | cons x l ih =>
            intro hx
            have := hx x (by simp)
            rw [List.map_cons, List.sum_cons, List.map_cons, List.sum_cons, ih (fun y hy => hx y (by simp [hy])), Nat.add_mul, ← Nat.pow_add,
              show 7 - x + 9 = 16 - x by omega]
        exact this _ fun x hx => h7 x ((List.mem_filter.1 hx).1)
      rw [this, show (16 : Nat) = 7 + 9 from rfl, Nat.pow_add]
      exact Nat.mul_le_mul_right _ hk
    obtain ⟨t, e2, ht⟩ := tree_ok (n := 256) (m := 16) (by omega) (by omega) (fun x hx => by have := h7 x hx; omega) hv'
    refine ⟨some t, s1, ?_, ⟨ht, by omega⟩, h1⟩
    unfold readAligned
    rw [if_pos (show (Body.coded (some al) a b c ts).type = 2 from rfl), e1, R.ok_bind]
    simp only [e2, R.ok_bind]
    rfl

theorem codedBlock_ok {data : List Byte} {s : Bs} {rest : List Bool} {al : Option (List Nat)} {a b c : Lengths} {ts : List Token} {pos : Nat} {ss : State}
    (hw : (Body.coded al a b c ts).wf pos ss) (hv : Valid 16 (c.expand ss.lengths)) (h : At data s ((Body.coded al a b c ts).bits ss ++ rest))
    {st : St} {out room : List Byte} (hst : StIs st ss out room) (hok : Spec.Lz.Ok out (tokenOps ss.recent ts)) (hroom : tokensSize ts ≤ room.length) :
    ∃ st' s', codedBlock data (Body.coded al a b c ts).type (tokensSize ts) st s = .ok (st', s') ∧
      StIs st' ((Body.coded al a b c ts).next ss) (run out (tokenOps ss.recent ts)) (room.drop (tokensSize ts)) ∧ At data s' rest := by
  obtain ⟨wal, wa, wb, wc, wm, -, wt⟩ := hw
  simp only [Body.bits, List.append_assoc] at h
  obtain ⟨t, s1, e1, ha, h1⟩ := readAligned_ok wal a b c ts h
  obtain ⟨s2, e2, h2⟩ := readCodeSizes_ok hst.s1 wa h1
  obtain ⟨s3, e3, h3⟩ := readCodeSizes_ok hst.s2 wb h2
  have la := wa.total
  have lb := wb.total
  have lc := wc.total
  have hl1 := hst.l1
  have hl2 := hst.l2
  have hl3 := hst.l3
  have sm : ∀ x ∈ a.expand ss.literals ++ b.expand ss.matches_, x < 256 := by
    intro x hx
    have := wm.1 x hx
    omega
  obtain ⟨tm, e4, hm⟩ := tree_ok (n := 256 + 240) (m := 16) (by omega) (by simp; omega) sm wm
  obtain ⟨s4, e5, h4⟩ := readCodeSizes_ok hst.s3 wc h3
  obtain ⟨tl, e6, hl⟩ := tree_ok (n := 249) (m := 16) (by omega) (by omega) (fun x hx => by have := hv.1 x hx; omega) hv
  obtain ⟨s5, e7, h5⟩ := huffBlock_ok hm (Or.inl hl) ha ts (tokensSize ts) s4 ss.recent out room rest (out.length + tokensSize ts) rfl (Nat.le_refl _) hroom wt hok h4
  rw [hl1] at e2
  rw [hl2] at e3
  rw [hl3] at e5
  refine ⟨⟨enc (a.expand ss.literals), enc (b.expand ss.matches_), enc (c.expand ss.lengths), ofSpec (tokensRecent ss.recent ts),
    run out (tokenOps ss.recent ts) ++ room.drop (tokensSize ts), out.length + tokensSize ts⟩, s5, ?_, ?_, h5⟩
  · unfold codedBlock
    rw [e1, R.ok_bind]
    simp only [hst.main1, e2, R.ok_bind, hst.main2, e3, ← enc_append, e4, hst.match_, e5, e6, hst.o, hst.recent, hst.buf, e7]
    rfl
  · exact ⟨rfl, rfl, rfl, rfl, rfl, (tokens_run_length ts out ss.recent).symm, by rw [← hl1]; exact la, by rw [← hl2]; exact lb, by rw [← hl3]; exact lc,
      expand_le16 _ a, expand_le16 _ b, expand_le16 _ c⟩

/-! ## Any block -/

/-- What the code handles of the block whose header ends at bit position `pos`: a length code with symbols; padding
of less than 16 bits, and no byte after uncompressed data unless it ends the data. -/
def Handled (pos : Nat) (ss : State) (last : Prop) : Body → Prop
  | .coded _ _ _ c _ => Valid 16 (c.expand ss.lengths)
  | .raw _ _ bytes _ => pos % 16 ≠ 0 ∧ (bytes.length % 2 = 0 ∨ last)

theorem readSize_ok {data : List Byte} {b : Block} (hw : if b.short then b.body.size = 32768 else b.body.size < 65536) {s : Bs} {rest : List Bool}
    (h : At data s (b.sizeBits ++ rest)) : ∃ s', readSize data s = .ok (b.body.size, s') ∧ At data s' rest := by
  unfold Block.sizeBits at h
  unfold readSize
  by_cases hs : b.short = true
  · rw [if_pos hs] at h hw
    obtain ⟨s1, e1, h1⟩ := getBit_ok h
    exact ⟨s1, by rw [e1, R.ok_bind, hw]; rfl, h1⟩
  · rw [if_neg hs] at h hw
    obtain ⟨s1, e1, h1⟩ := getBit_ok h
    obtain ⟨s2, e2, h2⟩ := getValue_ok (by omega) h1 (by omega)
    exact ⟨s2, by rw [e1, R.ok_bind]; exact e2, h2⟩

theorem block_ok {data : List Byte} {b : Block} {pos : Nat} {ss : State} {last : Prop} (hw : b.wf pos ss) (hh : Handled (pos + 3 + b.sizeBits.length) ss last b.body)
    {s : Bs} {rest : List Bool} (h : At data s (b.bits ss ++ rest)) (hpos : (pos + (rem data s).length) % 16 = 0)
    {st : St} {out room : List Byte} (hst : StIs st ss out room) (hok : Spec.Lz.Ok out (b.body.ops ss)) (hroom : b.body.size ≤ room.length) :
    ∃ st' s', block data st s = .ok (st', s') ∧ StIs st' (b.body.next ss) (run out (b.body.ops ss)) (room.drop b.body.size) ∧
      (run out (b.body.ops ss)).length = out.length + b.body.size ∧ (¬ last → At data s' rest) := by
  obtain ⟨hsize, hshort, hbody⟩ := hw
  have h0 := h
  unfold Block.bits at h
  simp only [List.append_assoc] at h
  have htype : b.body.type < 2 ^ 3 := by cases b.body with
    | coded al _ _ _ _ => cases al <;> simp [Body.type]
    | raw _ _ _ _ => simp [Body.type]
  obtain ⟨s1, e1, h1⟩ := getValue_ok (by omega) h htype
  obtain ⟨s2, e2, h2⟩ := readSize_ok hshort h1
  unfold block
  rw [e1, R.ok_bind]
  simp only [e2, R.ok_bind]
  cases hb : b.body with
  | coded al a bb c ts =>
    rw [hb] at h2 hbody hh hok hroom
    obtain ⟨st', s', e3, hst', h3⟩ := codedBlock_ok hbody hh h2 hst hok hroom
    refine ⟨st', s', ?_, hst', tokens_run_length ts out ss.recent, fun _ => h3⟩
    rw [if_pos (by cases al <;> simp [Body.type])]
    exact e3
  | raw pad r bytes after =>
    rw [hb] at h2 hbody hh hok hroom
    obtain ⟨w1, w2, w3, w4, w5, w6, w7, w8⟩ := hbody
    have hlen : (rem data s).length = 3 + b.sizeBits.length + (rem data s2).length := by
      rw [h0.2, h2.2, Block.bits, hb]
      simp only [List.length_append, bits_length]
      omega
    have hp := hh.1
    obtain ⟨s3, e3, h3, -⟩ := rawBlock_ok (by omega) (by omega) ⟨w2, w3, w4, w5, w6, w7⟩ w8 h2 st out room hst.buf hst.o hroom
    refine ⟨{ st with recent := ofSpec r, buf := (out ++ bytes) ++ room.drop bytes.length, o := out.length + bytes.length }, s3, ?_, ?_,
      by simp [Body.ops, Body.size, run, Op.run], ?_⟩
    · rw [if_neg (by simp [Body.type]), if_pos (show (Body.raw pad r bytes after).type = 3 from rfl)]
      exact e3
    · exact ⟨hst.main1, hst.main2, hst.match_, rfl, rfl, by simp [Body.ops, run, Op.run], hst.l1, hst.l2, hst.l3, hst.s1, hst.s2, hst.s3⟩
    · intro hl
      have := hh.2.resolve_right hl
      exact h3 (List.eq_nil_of_length_eq_zero (by omega))

/-- Every block is one the code handles. -/
def AllHandled : Nat → State → List Block → Prop
  | _, _, [] => True
  | pos, ss, b :: bs => Handled (pos + 3 + b.sizeBits.length) ss (bs = []) b.body ∧ AllHandled (pos + (b.bits ss).length) (b.body.next ss) bs

theorem block_length {b : Block} {pos : Nat} {ss : State} (hw : b.wf pos ss) : 16 ≤ (b.bits ss).length := by
  unfold Block.bits
  rw [List.length_append, List.length_append, bits_length]
  obtain ⟨_, _, hbody⟩ := hw
  have flat : ∀ l : List Nat, (l.flatMap (bits 4)).length = 4 * l.length := by
    intro l
    induction l with
    | nil => rfl
    | cons x l ih => rw [List.flatMap_cons, List.length_append, ih, bits_length, List.length_cons]; omega
  cases hb : b.body with
  | coded al a bb c ts =>
    rw [hb] at hbody
    have := hbody.2.1.pre
    simp only [Body.bits, List.length_append, Lengths.bits, flat]
    omega
  | raw pad r bytes after =>
    simp only [Body.bits, List.length_append, wordBits_length, le_length]
    omega

theorem blocks_ok {data : List Byte} (hadv : ∀ (st : St) s st' s', st.main1.length = 256 → st.main2.length = 240 → st.match_.length = 249 → st.o ≤ st.buf.length → Inv data s → block data st s = .ok (st', s') → s.off < s'.off) (bs : List Block) :
    ∀ (fuel pos : Nat) (ss : State) (s : Bs) (rest : List Bool) (st : St) (out room : List Byte),
    Spec.Lzx.Wf pos ss bs → AllHandled pos ss bs → (bs ≠ [] → At data s (Spec.Lzx.encode ss bs ++ rest)) → (bs ≠ [] → (pos + (rem data s).length) % 16 = 0) →
    (bs ≠ [] → data.length - s.off ≤ fuel) →
    StIs st ss out room → Spec.Lz.Ok out (Spec.Lzx.ops ss bs) → (run out (Spec.Lzx.ops ss bs)).length = out.length + room.length →
    ∃ st', blocks data fuel st s = .ok st' ∧ st'.buf = run out (Spec.Lzx.ops ss bs) ∧ st'.o = (run out (Spec.Lzx.ops ss bs)).length := by
  induction bs with
  | nil =>
    intro fuel pos ss s rest st out room hw hh h hpos hf hst hok hlen
    simp only [Spec.Lzx.ops, run] at hlen ⊢
    have hroom : room = [] := List.eq_nil_of_length_eq_zero (by omega)
    subst hroom
    have hb := hst.buf
    have ho := hst.o
    rw [List.append_nil] at hb
    refine ⟨st, ?_, hb, ho⟩
    cases fuel <;> unfold blocks <;> rw [hb, ho] <;> simp
  | cons b bs ih =>
    intro fuel pos ss s rest st out room hw hh h hpos hf hst hok hlen
    have h := h (by simp)
    have hpos := hpos (by simp)
    have hf := hf (by simp)
    simp only [Spec.Lzx.encode, List.append_assoc] at h
    simp only [Spec.Lzx.ops, Lz.run_append, Lz.ok_append] at hlen hok ⊢
    have hbl := block_length hw.1
    have hoff : s.off < data.length := by
      have := congrArg List.length h.2
      rw [List.length_append, rem_length] at this
      have := h.1.small
      omega
    obtain ⟨fuel, rfl⟩ : ∃ f, fuel = f + 1 := ⟨fuel - 1, by omega⟩
    have hmono := Lz.le_run (run out (b.body.ops ss)) (Spec.Lzx.ops (b.body.next ss) bs)
    have hrl : (run out (b.body.ops ss)).length = out.length + b.body.size := by
      cases b.body with
      | coded al a bb c ts => exact tokens_run_length ts out ss.recent
      | raw pad r bytes after => simp [Body.ops, Body.size, run, Op.run]
    have hsz : b.body.size ≤ room.length := by omega
    obtain ⟨st', s', e, hst', -, hat⟩ := block_ok hw.1 hh.1 h hpos hst hok.1 hsz
    have hs1 := hw.1.1
    have hlt := hadv st s st' s' (by rw [hst.main1, enc_length, hst.l1]) (by rw [hst.main2, enc_length, hst.l2]) (by rw [hst.match_, enc_length, hst.l3])
      (by rw [hst.o, hst.buf]; simp) h.1 e
    obtain ⟨st2, e2, r1, r2⟩ := ih fuel (pos + (b.bits ss).length) (b.body.next ss) s' rest st' _ _ hw.2 hh.2 hat (by
        intro hne
        have := congrArg List.length h.2
        rw [List.length_append] at this
        rw [(hat hne).2]
        omega) (by intro _; omega) hst' hok.2 (by rw [hlen, hrl, List.length_drop]; omega)
    refine ⟨st2, ?_, r1, r2⟩
    unfold blocks
    rw [if_pos hoff, if_neg (by rw [hst.o, hst.buf, List.length_append]; omega), e, R.ok_bind]
    exact e2

/-! ## Call instructions -/

theorem calls_stop {tail n : Nat} (l : List Byte) : ∀ i, n ≤ i + tail → Spec.Lzx.calls tail n i l = l := by
  intro i
  fun_induction Spec.Lzx.calls tail n i l with
  | case1 i b a0 a1 a2 a3 rest h ih => intro h'; omega
  | case2 i b a0 a1 a2 a3 rest h ih => intro h'; rw [ih (by omega)]
  | case3 => intro _; rfl

theorem calls_length {tail n : Nat} (l : List Byte) : ∀ i, (Spec.Lzx.calls tail n i l).length = l.length := by
  intro i
  fun_induction Spec.Lzx.calls tail n i l with
  | case1 i b a0 a1 a2 a3 rest h ih => simp [ih]; omega
  | case2 i b a0 a1 a2 a3 rest h ih => simp [ih]
  | case3 => rfl

/-- Only call instructions between the two limits make a difference. -/
theorem calls_tail {n : Nat} (l : List Byte) : ∀ i, n = i + l.length → (∀ j, n ≤ i + j + 10 → i + j + 6 < n → l[j]? ≠ some 0xe8) →
    Spec.Lzx.calls 6 n i l = Spec.Lzx.calls 10 n i l := by
  intro i
  fun_induction Spec.Lzx.calls 6 n i l with
  | case1 i b a0 a1 a2 a3 rest h ih =>
    intro hn hj
    conv_rhs => unfold Spec.Lzx.calls
    have : i + 10 < n := by
      by_contra hc
      exact hj 0 (by omega) (by omega) (by rw [h.1]; rfl)
    rw [if_pos ⟨h.1, this⟩, ih (by rw [hn]; simp; omega) (fun j h1 h2 => by
      have := hj (j + 5) (by omega) (by omega)
      simpa using this)]
  | case2 i b a0 a1 a2 a3 rest h ih =>
    intro hn hj
    conv_rhs => unfold Spec.Lzx.calls
    rw [if_neg (by rintro ⟨h1, h2⟩; exact h ⟨h1, by omega⟩), ih (by rw [hn]; simp; omega) (fun j h1 h2 => by
      have := hj (j + 1) (by omega) (by omega)
      simpa using this)]
  | case3 i rest h =>
    intro _ _
    conv_rhs => unfold Spec.Lzx.calls
    split
    · exact absurd rfl (h _ _ _ _ _ _)
    · rfl

theorem leVal_eq (l : List Byte) : Spec.Lzx.leVal l = leNat l := by
  induction l with
  | nil => rfl
  | cons b l ih => simp [Spec.Lzx.leVal, leNat, ih]

theorem le_leVal (l : List Byte) : Spec.Lzx.le l.length (Spec.Lzx.leVal l) = l := by
  induction l with
  | nil => rfl
  | cons b l ih =>
    have hb := b.isLt
    simp only [List.length_cons, Spec.Lzx.le, Spec.Lzx.leVal]
    rw [show (b.toNat + 256 * Spec.Lzx.leVal l) / 256 = Spec.Lzx.leVal l by omega, ih]
    congr 1
    apply BitVec.eq_of_toNat_eq
    rw [BitVec.toNat_ofNat]
    omega

theorem leVal_lt (l : List Byte) : Spec.Lzx.leVal l < 256 ^ l.length := by
  induction l with
  | nil => simp [Spec.Lzx.leVal]
  | cons b l ih =>
    have hb := b.isLt
    simp only [List.length_cons, Spec.Lzx.leVal, Nat.pow_succ]
    omega

theorem adjustStep_ok (done rest : List Byte) (a0 a1 a2 a3 : Byte) :
    adjustStep (done ++ (0xe8 :: a0 :: a1 :: a2 :: a3 :: rest)) done.length =
      .ok (done ++ (0xe8 :: Spec.Lzx.le 4 (Spec.Lzx.restore done.length (Spec.Lzx.signed (Spec.Lzx.leVal [a0, a1, a2, a3])) % 2 ^ 32).toNat ++ rest)) := by
  have hi : i32le (done ++ (0xe8 :: a0 :: a1 :: a2 :: a3 :: rest)) (done.length + 1) = .ok (Spec.Lzx.signed (Spec.Lzx.leVal [a0, a1, a2, a3])) := by
    unfold i32le
    rw [R.slice_ok (by omega) (by simp; omega), R.ok_bind, ← List.drop_drop, List.drop_left, leVal_eq]
    simp only [List.drop_succ_cons, List.drop_zero]
    rw [show done.length + 1 + 4 - (done.length + 1) = 4 by omega]
    rfl
  unfold adjustStep
  rw [hi, R.ok_bind]
  have hlt : Spec.Lzx.leVal [a0, a1, a2, a3] < 2 ^ 32 := by
    have := leVal_lt [a0, a1, a2, a3]
    norm_num at this ⊢
    exact this
  have hle := le_leVal [a0, a1, a2, a3]
  simp only [List.length_cons, List.length_nil, Nat.zero_add, Nat.reduceAdd] at hle
  generalize hv : Spec.Lzx.leVal [a0, a1, a2, a3] = v at *
  unfold Spec.Lzx.restore
  by_cases hc : Spec.Lzx.signed v ≥ -(done.length : Int) ∧ Spec.Lzx.signed v < 12000000
  · have hc' : -(done.length : Int) ≤ Spec.Lzx.signed v ∧ Spec.Lzx.signed v < 12000000 := hc
    rw [if_pos hc, if_pos hc', R.splice_ok (by omega) (by simp) (by rw [← le_eq, le_length]; omega), ← le_eq]
    congr 1
    rw [List.take_append, List.drop_append, List.take_of_length_le (by omega), List.drop_eq_nil_of_le (by omega)]
    simp
  · rw [if_neg hc, if_neg hc]
    have : (Spec.Lzx.signed v % 2 ^ 32).toNat = v := by
      unfold Spec.Lzx.signed
      split <;> omega
    rw [this, hle]
    rfl

theorem adjustLoop_ok (size : Nat) (fuel : Nat) : ∀ (done rest : List Byte), size = done.length + rest.length → 6 ≤ size → rest.length ≤ fuel →
    adjustLoop size fuel (done ++ rest) done.length = .ok (done ++ Spec.Lzx.calls 6 size done.length rest) := by
  induction fuel with
  | zero =>
    intro done rest hs h6 hf
    have : rest = [] := List.eq_nil_of_length_eq_zero (by omega)
    subst this
    unfold adjustLoop
    rw [if_neg (by simp at hs; omega), calls_stop _ _ (by simp at hs; omega)]
  | succ fuel ih =>
    intro done rest hs h6 hf
    unfold adjustLoop
    by_cases hlt : done.length < size - 6
    · rw [if_pos hlt]
      match rest, hs, hf with
      | b :: a0 :: a1 :: a2 :: a3 :: rest, hs, hf =>
        simp only [List.length_cons] at hs hf
        rw [R.get_ok (by simp), R.ok_bind]
        have hg : (done ++ b :: a0 :: a1 :: a2 :: a3 :: rest)[done.length]'(by simp) = b := by simp
        rw [hg]
        unfold Spec.Lzx.calls
        by_cases hb : b = 0xe8
        · subst hb
          rw [if_neg (by simp), if_pos ⟨rfl, by omega⟩, adjustStep_ok, R.ok_bind]
          have := ih (done ++ (0xe8 :: Spec.Lzx.le 4 (Spec.Lzx.restore done.length (Spec.Lzx.signed (Spec.Lzx.leVal [a0, a1, a2, a3])) % 2 ^ 32).toNat)) rest
            (by simp; omega) h6 (by omega)
          simp only [List.length_append, List.length_cons, le_length, List.append_assoc, List.cons_append] at this ⊢
          exact this
        · rw [if_pos hb, if_neg (fun h => hb h.1)]
          have := ih (done ++ [b]) (a0 :: a1 :: a2 :: a3 :: rest) (by simp; omega) h6 (by simp; omega)
          simp only [List.length_append, List.length_singleton, List.append_assoc, List.singleton_append] at this
          exact this
      | [], hs, hf | [_], hs, hf | [_, _], hs, hf | [_, _, _], hs, hf | [_, _, _, _], hs, hf =>
        simp at hs; omega
    · rw [if_neg hlt, calls_stop _ _ (by omega)]

end Keramics.Lzx
