import Verif.Lemmas.LzxSat

/-! # LZX decompression into a buffer that is larger than the data -/

namespace Keramics.Lzx
open Keramics.Spec.Huffman Keramics.Huffman
open Keramics.Spec.Lzx (Block Body State)
open Keramics.Spec.Lz (run Op)
open Keramics.Bzip2 (bits_length)
open Keramics.Deflate (enc_length)

/-- `block_ok`, with where reading goes on. -/
theorem block_even {data : List Byte} {b : Block} {pos : Nat} {ss : State} (hw : b.wf pos ss) (hh : Handled (pos + 3 + b.sizeBits.length) ss False b.body)
    {s : Bs} {rest : List Bool} (h : At data s (b.bits ss ++ rest)) (hpos : (pos + (rem data s).length) % 16 = 0)
    {st : St} {out room : List Byte} (hst : StIs st ss out room) (hroom : b.body.size ≤ room.length)
    {st' : St} {s' : Bs} (e : block data st s = .ok (st', s')) : s'.off % 2 = s.off % 2 := by
  obtain ⟨hsize, hshort, hbody⟩ := hw
  have h0 := h
  unfold Block.bits at h
  simp only [List.append_assoc] at h
  have htype : b.body.type < 2 ^ 3 := by cases b.body with
    | coded al _ _ _ _ => cases al <;> simp [Body.type]
    | raw _ _ _ _ => simp [Body.type]
  obtain ⟨s1, e1, h1⟩ := getValue_ok (by omega) h htype
  obtain ⟨s2, e2, h2⟩ := readSize_ok hshort h1
  have a1 := ((getValue_sat (by omega) (After.refl h0.1)).of_ok e1).2
  have a2 := (readSize_sat a1).of_ok e2
  unfold block at e
  rw [e1, R.ok_bind] at e
  simp only [e2, R.ok_bind] at e
  cases hb : b.body with
  | coded al a bb c ts =>
    rw [hb] at e
    rw [if_pos (by cases al <;> simp [Body.type])] at e
    have hstk : StOk st.buf st := ⟨by rw [hst.main1, enc_length, hst.l1], by rw [hst.main2, enc_length, hst.l2], by rw [hst.match_, enc_length, hst.l3], rfl,
      by rw [hst.o, hst.buf]; simp, rfl⟩
    exact ((codedBlock_sat hstk h0.1 a2).of_ok e).2.2.2
  | raw pad r bytes after =>
    rw [hb] at h2 hbody hh hroom e
    obtain ⟨w1, w2, w3, w4, w5, w6, w7, w8⟩ := hbody
    have hlen : (rem data s).length = 3 + b.sizeBits.length + (rem data s2).length := by
      rw [h0.2, h2.2, Block.bits, hb]
      simp only [List.length_append, bits_length]
      omega
    have hp := hh.1
    have hev := hh.2.resolve_right id
    obtain ⟨s3, e3, -, ho⟩ := rawBlock_ok (by omega) (by omega) ⟨w2, w3, w4, w5, w6, w7⟩ w8 h2 st out room hst.buf hst.o hroom
    rw [if_neg (by simp [Body.type]), if_pos (show (Body.raw pad r bytes after).type = 3 from rfl)] at e
    have hs : s3 = s' := by
      have := e3.symm.trans e
      injection this with this
      exact (Prod.mk.inj this).2
    have := a2.even
    simp only at this
    rw [← hs, ho]
    omega

/-- Every block is one the code handles, wherever it is. -/
def AllEven : Nat → State → List Block → Prop
  | _, _, [] => True
  | pos, ss, b :: bs => Handled (pos + 3 + b.sizeBits.length) ss False b.body ∧ AllEven (pos + (b.bits ss).length) (b.body.next ss) bs

theorem blocks_room {data : List Byte} (heven : data.length % 2 = 0) (bs : List Block) :
    ∀ (fuel pos : Nat) (ss : State) (s : Bs) (rest : List Bool) (st : St) (out room : List Byte),
    Spec.Lzx.Wf pos ss bs → AllEven pos ss bs → At data s (Spec.Lzx.encode ss bs ++ rest) → rest.length < 16 → s.off % 2 = 0 → (pos + (rem data s).length) % 16 = 0 →
    data.length - s.off ≤ fuel →
    StIs st ss out room → Spec.Lz.Ok out (Spec.Lzx.ops ss bs) → (run out (Spec.Lzx.ops ss bs)).length ≤ out.length + room.length →
    ∃ st' room', blocks data fuel st s = .ok st' ∧ st'.buf = run out (Spec.Lzx.ops ss bs) ++ room' ∧ st'.o = (run out (Spec.Lzx.ops ss bs)).length := by
  induction bs with
  | nil =>
    intro fuel pos ss s rest st out room hw hh h hrest hoe hpos hf hst hok hlen
    simp only [Spec.Lzx.ops, run] at hlen ⊢
    simp only [Spec.Lzx.encode, List.nil_append] at h
    have hl := congrArg List.length h.2
    rw [rem_length] at hl
    have := h.1.off
    refine ⟨st, room, ?_, hst.buf, hst.o⟩
    cases fuel <;> unfold blocks <;> rw [if_neg (by omega)]
  | cons b bs ih =>
    intro fuel pos ss s rest st out room hw hh h hrest hoe hpos hf hst hok hlen
    simp only [Spec.Lzx.encode, List.append_assoc] at h
    simp only [Spec.Lzx.ops, Lz.run_append, Lz.ok_append] at hlen hok ⊢
    have hbl := block_length hw.1
    have hoff : s.off < data.length := by
      have := congrArg List.length h.2
      rw [List.length_append, rem_length] at this
      have := h.1.small
      omega
    obtain ⟨fuel, rfl⟩ : ∃ f, fuel = f + 1 := ⟨fuel - 1, by omega⟩
    have hmono := Lz.le_run (run out (b.body.ops ss)) (Spec.Lzx.ops (b.body.next ss) bs)
    have hrl : (run out (b.body.ops ss)).length = out.length + b.body.size := by
      cases b.body with
      | coded al a bb c ts => exact tokens_run_length ts out ss.recent
      | raw pad r bytes after => simp [Body.ops, Body.size, run, Op.run]
    have hsz : b.body.size ≤ room.length := by omega
    obtain ⟨st', s', e, hst', -, hat⟩ := block_ok hw.1 hh.1 h hpos hst hok.1 hsz
    have hat := hat id
    have hev := block_even hw.1 hh.1 h hpos hst hsz e
    have hs1 := hw.1.1
    have hstk : StOk st.buf st := ⟨by rw [hst.main1, enc_length, hst.l1], by rw [hst.main2, enc_length, hst.l2], by rw [hst.match_, enc_length, hst.l3], rfl,
      by rw [hst.o, hst.buf]; simp, rfl⟩
    have hlt := ((block_sat hstk h.1).of_ok e).2.2
    simp only at hlt
    obtain ⟨st2, room2, e2, r1, r2⟩ := ih fuel (pos + (b.bits ss).length) (b.body.next ss) s' rest st' _ _ hw.2 hh.2 hat hrest (by omega) (by
        have := congrArg List.length h.2
        rw [List.length_append] at this
        rw [hat.2]
        omega) (by omega) hst' hok.2 (by rw [hrl, List.length_drop]; omega)
    refine ⟨st2, room2, ?_, r1, r2⟩
    unfold blocks
    rw [if_pos hoff, if_neg (by rw [hst.o, hst.buf, List.length_append]; omega), e, R.ok_bind]
    exact e2

theorem adjustLoop_room (size : Nat) (room : List Byte) (fuel : Nat) : ∀ (done rest : List Byte), size = done.length + rest.length → 6 ≤ size → rest.length ≤ fuel →
    adjustLoop size fuel (done ++ rest ++ room) done.length = .ok (done ++ Spec.Lzx.calls 6 size done.length rest ++ room) := by
  induction fuel with
  | zero =>
    intro done rest hs h6 hf
    have : rest = [] := List.eq_nil_of_length_eq_zero (by omega)
    subst this
    unfold adjustLoop
    rw [if_neg (by simp at hs; omega), calls_stop _ _ (by simp at hs; omega)]
  | succ fuel ih =>
    intro done rest hs h6 hf
    unfold adjustLoop
    by_cases hlt : done.length < size - 6
    · rw [if_pos hlt]
      match rest, hs, hf with
      | b :: a0 :: a1 :: a2 :: a3 :: rest, hs, hf =>
        simp only [List.length_cons] at hs hf
        rw [R.get_ok (by simp), R.ok_bind]
        have hg : (done ++ b :: a0 :: a1 :: a2 :: a3 :: rest ++ room)[done.length]'(by simp) = b := by simp
        rw [hg]
        unfold Spec.Lzx.calls
        by_cases hb : b = 0xe8
        · subst hb
          rw [if_neg (by simp), if_pos ⟨rfl, by omega⟩]
          simp only [List.append_assoc, List.cons_append]
          rw [adjustStep_ok, R.ok_bind]
          have := ih (done ++ (0xe8 :: Spec.Lzx.le 4 (Spec.Lzx.restore done.length (Spec.Lzx.signed (Spec.Lzx.leVal [a0, a1, a2, a3])) % 2 ^ 32).toNat)) rest
            (by simp; omega) h6 (by omega)
          simp only [List.length_append, List.length_cons, le_length, List.append_assoc, List.cons_append] at this ⊢
          exact this
        · rw [if_pos hb, if_neg (fun h => hb h.1)]
          have := ih (done ++ [b]) (a0 :: a1 :: a2 :: a3 :: rest) (by simp; omega) h6 (by simp; omega)
          simp only [List.length_append, List.length_singleton, List.append_assoc, List.cons_append] at this ⊢
          exact this
      | [], hs, hf | [_], hs, hf | [_, _], hs, hf | [_, _, _], hs, hf | [_, _, _, _], hs, hf =>
        simp at hs; omega
    · rw [if_neg hlt, calls_stop _ _ (by omega)]

end Keramics.Lzx
