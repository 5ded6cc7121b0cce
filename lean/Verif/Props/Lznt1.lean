import Verif.Base.Bits
import Verif.Lemmas.Lz
import Verif.Model.Lznt1
import Verif.Spec.Lznt1

/-!
C24: LZNT1 decompression.
-/

namespace Keramics.Lznt1
open Spec.Lznt1 Spec.Lz

/-! ## The position dependent split -/

/-- Shift, mask and threshold are those for output offset `o`. -/
structure Split (o shift threshold mask : Nat) : Prop where
  le : shift ≤ 12
  hmask : mask = 2 ^ shift - 1
  hthreshold : threshold = 2 ^ (16 - shift)
  upper : o ≤ threshold
  lower : shift < 12 → 2 ^ (15 - shift) < o

theorem adjust_ok {o shift threshold mask : Nat} (hs : shift ≤ 12) (hm : mask = 2 ^ shift - 1)
    (ht : threshold = 2 ^ (16 - shift)) (hl : shift < 12 → 2 ^ (15 - shift) < o) (ho : o ≤ 32768) :
    ∃ t s m, adjust o shift threshold mask = .ok (t, s, m) ∧ Split o s t m ∧ 1 ≤ s ∧ s ≤ shift := by
  induction shift generalizing threshold mask with
  | zero => have := hl (by omega); simp at this; omega
  | succ k ih =>
    unfold adjust
    by_cases h : o > threshold
    · rw [if_pos h]
      simp only
      have g1 : mask >>> 1 = 2 ^ k - 1 := by
        rw [hm, Nat.shiftRight_eq_div_pow, Nat.pow_succ]
        omega
      have g2 : threshold <<< 1 = 2 ^ (16 - k) := by
        rw [ht, Nat.shiftLeft_eq, ← Nat.pow_add]
        congr 1
        omega
      have g3 : k < 12 → 2 ^ (15 - k) < o := by
        intro _
        rw [ht, show 16 - (k + 1) = 15 - k by omega] at h
        exact h
      obtain ⟨t, s, m, e, hsp, h1, h2⟩ := ih (by omega) g1 g2 g3
      exact ⟨t, s, m, e, hsp, h1, by omega⟩
    · rw [if_neg h]
      exact ⟨threshold, k + 1, mask, rfl, ⟨hs, hm, ht, by omega, hl⟩, by omega, by omega⟩

theorem split_bits {o s t m : Nat} (h : Split o s t m) (ho : o ≤ 4096) : s = lengthBits o := by
  obtain ⟨h1, _, h3, h4, h5⟩ := h
  rw [h3] at h4
  have : s = 0 ∨ s = 1 ∨ s = 2 ∨ s = 3 ∨ s = 4 ∨ s = 5 ∨ s = 6 ∨ s = 7 ∨ s = 8 ∨ s = 9 ∨ s = 10 ∨ s = 11 ∨ s = 12 := by
    omega
  unfold lengthBits distanceBits
  rcases this with rfl | rfl | rfl | rfl | rfl | rfl | rfl | rfl | rfl | rfl | rfl | rfl | rfl <;>
    simp at h4 h5 <;> (repeat' split) <;> omega

theorem start_split : Split 0 12 16 0x0fff := ⟨by omega, by omega, by omega, by omega, by omega⟩

/-! ## Decoding what was encoded -/

theorem u16le_two {data : List Byte} {c : Nat} {a b : Byte} {post}
    (h : data.drop c = a :: b :: post) : u16le data c = .ok (a.toNat + 256 * b.toNat) := by
  have hl := R.length_of_drop (s := [a, b]) h (by simp)
  unfold u16le
  have := R.slice_of_drop (s := [a, b]) h (by simp at hl; omega)
  rw [show c + [a, b].length = c + 2 from rfl] at this
  rw [this, R.ok_bind, R.pure_eq]
  simp [leNat]

theorem u16le_le16 {data : List Byte} {c v : Nat} {post} (hv : v < 65536)
    (h : data.drop c = le16 v ++ post) : u16le data c = .ok v := by
  rw [u16le_two (a := BitVec.ofNat 8 (v % 256)) (b := BitVec.ofNat 8 (v / 256)) (post := post) h]
  simp only [BitVec.toNat_ofNat]
  congr 1
  omega

theorem distanceBits_spec (u : Nat) (hu : u ≤ 4096) :
    u ≤ 2 ^ distanceBits u ∧ distanceBits u ≤ 12 ∧ 4 ≤ distanceBits u := by
  unfold distanceBits
  repeat' split
  all_goals simp; try omega

theorem op_run_length (t : Token) (out : List Byte) : (t.op.run out).length = out.length + t.length := by
  cases t <;> simp [Token.op, Op.run, Token.length]

theorem run_length (ts : List Token) (out : List Byte) :
    (run out (ts.map Token.op)).length = out.length + total ts := by
  induction ts generalizing out with
  | nil => simp [run, total]
  | cons t ts ih => simp [run, ih, op_run_length, total]; omega

theorem token_ok {data post : List Byte} {s : St} (t : Token) (fl : Nat) (out rest : List Byte)
    (hb : s.buf = out ++ rest) (ho : s.o = out.length) (hw : t.wf out.length)
    (hu : out.length ≤ 4096)
    (hd : data.drop s.c = t.encode out.length ++ post) (hsp : Split s.o s.shift s.threshold s.mask)
    (hlen : t.length ≤ rest.length) :
    token data ((if t.isCopy then 1 else 0) + 2 * fl) s = .ok (s.c + (t.encode out.length).length,
      t.op.run out ++ rest.drop t.length, (t.op.run out).length) := by
  unfold token
  cases t with
  | literal b =>
    simp only [Token.isCopy, Bool.false_eq_true, if_false]
    have h0 : (0 + 2 * fl) &&& 0x01 = 0 := by
      rw [Nat.and_one_is_mod]; omega
    simp only [Token.encode] at hd
    have hL := R.length_of_drop hd (by simp)
    simp only [List.length_singleton] at hL
    simp only [Token.length] at hlen
    rw [if_neg (by rw [h0]; simp), R.require_true (by omega), R.ok_bind,
      R.require_true (by rw [hb, ho]; simp; omega), R.ok_bind, R.get_of_drop hd, R.ok_bind,
      R.set_ok (by rw [hb, ho]; simp; omega), R.ok_bind, hb, ho]
    cases rest with
    | nil => simp at hlen
    | cons r rest =>
      rw [List.set_append_right _ _ (by omega)]
      simp [Token.op, Op.run, Token.length, Token.encode]
  | copy d n =>
    obtain ⟨w1, w2, w3, w4⟩ := hw
    simp only [Token.isCopy, if_true]
    have h0 : (1 + 2 * fl) &&& 0x01 = 1 := by
      rw [Nat.and_one_is_mod]; omega
    have hbits := split_bits hsp (by omega)
    obtain ⟨b1, b2, b3⟩ := distanceBits_spec out.length hu
    rw [ho] at hbits
    simp only [Token.encode] at hd
    have hL := R.length_of_drop hd (by simp [le16])
    simp only [le16, List.length_cons, List.length_nil] at hL
    simp only [Token.length] at hlen
    have hpow : 2 ^ distanceBits out.length * 2 ^ lengthBits out.length = 65536 := by
      rw [← Nat.pow_add, lengthBits, show distanceBits out.length + (16 - distanceBits out.length) = 16 by omega]
    have hlb : 2 ^ lengthBits out.length ≤ 4096 := by
      have : lengthBits out.length ≤ 12 := by unfold lengthBits; omega
      calc 2 ^ lengthBits out.length ≤ 2 ^ 12 := Nat.pow_le_pow_right (by omega) this
        _ = 4096 := rfl
    have hv : (d - 1) * 2 ^ lengthBits out.length + (n - 3) < 65536 := by
      have : (d - 1 + 1) * 2 ^ lengthBits out.length ≤ 2 ^ distanceBits out.length * 2 ^ lengthBits out.length :=
        Nat.mul_le_mul_right _ (by omega)
      rw [Nat.add_mul, Nat.one_mul] at this
      omega
    have hdl : out.length ≤ 4096 := hu
    rw [if_pos (by rw [h0]; decide), R.subU_ok (by omega), R.ok_bind, R.require_true (by omega), R.ok_bind,
      u16le_le16 hv hd, R.ok_bind]
    have hmask := hsp.hmask
    rw [hbits] at hmask
    have e1 : ((d - 1) * 2 ^ lengthBits out.length + (n - 3)) >>> s.shift = d - 1 := by
      rw [hbits, Nat.shiftRight_eq_div_pow, Nat.add_comm, Nat.add_mul_div_right _ _ (by omega),
        Nat.div_eq_of_lt w4]
      omega
    have e2 : ((d - 1) * 2 ^ lengthBits out.length + (n - 3)) &&& s.mask = n - 3 := by
      rw [hmask, Nat.and_two_pow_sub_one_eq_mod, Nat.add_comm, Nat.add_mul_mod_self_right,
        Nat.mod_eq_of_lt w4]
    rw [e1, e2, R.addU_ok (by omega), R.ok_bind, R.addU_ok (by omega), R.ok_bind,
      show d - 1 + 1 = d by omega, show n - 3 + 3 = n by omega,
      R.require_true (by omega), R.ok_bind, R.subU_ok (by rw [hb, ho]; simp), R.ok_bind,
      R.require_true (by rw [hb, ho]; simp; omega), R.ok_bind, hb, ho,
      Lz.copyMatch_ok d n out rest w1 w2 hlen, R.ok_bind]
    simp [Token.op, Op.run, Token.length, Token.encode, le16]

theorem encode_token_ne (u : Nat) (t : Token) : t.encode u ≠ [] := by
  cases t <;> simp [Token.encode, le16]

/-- The rest of a group; `E` is what follows it in the block. -/
theorem tokens_ok {data E post : List Byte} {stop : Nat} (ts : List Token) (n : Nat) (s : St)
    (out rest : List Byte) (hb : s.buf = out ++ rest) (ho : s.o = out.length)
    (hw : TokensWf out.length ts) (hu : out.length + total ts ≤ 4096)
    (hd : data.drop s.c = elements out.length ts ++ (E ++ post))
    (hstop : stop = s.c + (elements out.length ts).length + E.length)
    (hsp : Split s.o s.shift s.threshold s.mask)
    (hlen : total ts ≤ rest.length) (hn : ts.length ≤ n) (hE : E ≠ [] → ts.length = n)
    (hne : E = [] → ts ≠ []) :
    ∃ s', tokens data stop n (flags ts) s = .ok s' ∧
      s'.c = s.c + (elements out.length ts).length ∧
      s'.buf = run out (ts.map Token.op) ++ rest.drop (total ts) ∧
      s'.o = out.length + total ts ∧ (E ≠ [] → Split s'.o s'.shift s'.threshold s'.mask) := by
  induction ts generalizing n s out rest with
  | nil =>
    have hE' : E ≠ [] := fun h => hne h rfl
    have : n = 0 := by simpa using (hE hE').symm
    subst this
    exact ⟨s, rfl, by simp [elements], by simp [run, total, hb], by simp [total, ho], fun _ => hsp⟩
  | cons t ts ih =>
    cases n with
    | zero => simp at hn
    | succ n =>
      unfold tokens
      simp only [elements, TokensWf, List.append_assoc] at hd hw
      simp only [elements, List.length_append] at hstop
      simp only [total, List.map_cons, List.sum_cons] at hu hlen
      have hlt := op_run_length t out
      rw [flags, token_ok t (flags ts) out rest hb ho hw.1 (by omega) hd hsp (by omega), R.ok_bind]
      simp only
      by_cases hend : s.c + (t.encode out.length).length ≥ stop
      · rw [if_pos hend]
        have hE0 : E = [] := List.length_eq_zero_iff.mp (by omega)
        have hts : ts = [] := by
          cases ts with
          | nil => rfl
          | cons t' ts' =>
            exfalso
            have := List.length_pos_iff.mpr (encode_token_ne (out.length + t.length) t')
            simp [elements] at hstop
            omega
        subst hts hE0
        refine ⟨_, rfl, by simp [elements], by simp [run, total], by simp [total, hlt], by simp⟩
      · rw [if_neg hend]
        obtain ⟨th, sh, mk, e, hsp', _, _⟩ := adjust_ok (o := (t.op.run out).length) hsp.le hsp.hmask hsp.hthreshold
          (by intro h; have := hsp.lower h; rw [ho] at this; omega) (by omega)
        rw [e, R.ok_bind]
        simp only
        have hfl : (((if t.isCopy then 1 else 0) + 2 * flags ts) >>> 1) = flags ts := by
          rw [Nat.shiftRight_eq_div_pow]
          split <;> omega
        rw [hfl]
        obtain ⟨s', e', h1, h2, h3, h4⟩ := ih n
          ⟨s.c + (t.encode out.length).length, t.op.run out ++ rest.drop t.length,
            (t.op.run out).length, th, sh, mk⟩ (t.op.run out) (rest.drop t.length) rfl rfl
          (by rw [hlt]; exact hw.2) (by rw [hlt, total]; omega)
          (by rw [hlt]; exact R.drop_add_of_drop hd)
          (by simp only; rw [hlt]; omega) hsp' (by simp [total]; omega) (by simpa using hn)
          (by intro h; simpa using hE h)
          (by
            intro h hts
            subst h hts
            simp [elements] at hstop
            omega)
        refine ⟨s', e', ?_, ?_, ?_, h4⟩
        · rw [h1]; simp only; rw [hlt]; simp [elements]; omega
        · rw [h2]; simp [run, total, List.drop_drop]
        · rw [h3, hlt]; simp [total]; omega

theorem encodeGroups_ne (u : Nat) (g : List Token) (gs) : encodeGroups u (g :: gs) ≠ [] := by
  simp [encodeGroups]

theorem flags_lt (ts : List Token) : flags ts < 2 ^ ts.length := by
  induction ts with
  | nil => simp [flags]
  | cons t ts ih =>
    simp only [flags, List.length_cons, Nat.pow_succ]
    split <;> omega

theorem tokensWf_append (u : Nat) (a b : List Token) :
    TokensWf u (a ++ b) ↔ TokensWf u a ∧ TokensWf (u + total a) b := by
  induction a generalizing u with
  | nil => simp [TokensWf, total]
  | cons t a ih =>
    simp only [List.cons_append, TokensWf, ih, total, List.map_cons, List.sum_cons, and_assoc,
      Nat.add_assoc]

theorem total_append (a b : List Token) : total (a ++ b) = total a + total b := by
  simp [total]

theorem groups_ok {data post : List Byte} {stop : Nat} (gs : List (List Token)) (fuel : Nat) (s : St)
    (out rest : List Byte) (hb : s.buf = out ++ rest) (ho : s.o = out.length)
    (hg : GroupsWf gs) (hw : TokensWf out.length gs.flatten) (hu : out.length + total gs.flatten ≤ 4096)
    (hd : data.drop s.c = encodeGroups out.length gs ++ post)
    (hstop : stop = s.c + (encodeGroups out.length gs).length)
    (hf : stop ≤ s.c + fuel)
    (hsp : gs ≠ [] → Split s.o s.shift s.threshold s.mask)
    (hlen : total gs.flatten ≤ rest.length) :
    ∃ s', groups data stop fuel s = .ok s' ∧
      s'.buf = run out (gs.flatten.map Token.op) ++ rest.drop (total gs.flatten) ∧
      s'.o = out.length + total gs.flatten := by
  induction gs generalizing fuel s out rest with
  | nil =>
    unfold groups
    simp only [encodeGroups, List.length_nil] at hstop
    rw [if_neg (by omega)]
    exact ⟨s, rfl, by simp [run, total, hb], by simp [total, ho]⟩
  | cons g gs ih =>
    unfold groups
    have hL := R.length_of_drop hd (encodeGroups_ne _ _ _)
    simp only [encodeGroups, List.length_cons, List.length_append, List.cons_append] at hd hstop hL
    simp only [List.flatten_cons, tokensWf_append, total_append] at hw hu hlen ⊢
    have hgl : 1 ≤ g.length ∧ g.length ≤ 8 ∧ (gs ≠ [] → g.length = 8) ∧ GroupsWf gs := by
      cases gs with
      | nil => exact ⟨hg.1, hg.2, by simp, trivial⟩
      | cons g' gs' => exact ⟨by have := hg.1; omega, by have := hg.1; omega, fun _ => hg.1, hg.2⟩
    have hfl : (BitVec.ofNat 8 (flags g)).toNat = flags g := by
      have h1 := flags_lt g
      have h2 : 2 ^ g.length ≤ 2 ^ 8 := Nat.pow_le_pow_right (by omega) hgl.2.1
      rw [BitVec.toNat_ofNat]
      omega
    rw [if_pos (by omega), if_neg (by omega)]
    cases fuel with
    | zero => omega
    | succ fuel =>
      simp only
      rw [R.get_of_drop hd, R.ok_bind, hfl]
      have hd1 := R.drop_succ_of_drop hd
      rw [List.append_assoc] at hd1
      have hgsne : encodeGroups (out.length + total g) gs ≠ [] → gs ≠ [] := by
        intro h h'; subst h'; exact h rfl
      obtain ⟨s', e, h1, h2, h3, h4⟩ := tokens_ok (E := encodeGroups (out.length + total g) gs) (stop := stop) g 8
        { s with c := s.c + 1 } out rest hb ho hw.1 (by omega) hd1 (by simp only; omega)
        (hsp (by simp)) (by omega) hgl.2.1 (fun h => hgl.2.2.1 (hgsne h))
        (by intro _ h; rw [h] at hgl; simp at hgl)
      rw [e, R.ok_bind]
      simp only at h1
      have hrl := run_length g out
      obtain ⟨s'', e', h5, h6⟩ := ih fuel s' (run out (g.map Token.op)) (rest.drop (total g)) h2
        (by rw [h3, hrl]) hgl.2.2.2 (by rw [hrl]; exact hw.2) (by rw [hrl]; omega)
        (by
          rw [hrl, h1]
          have := R.drop_add_of_drop hd1
          rwa [Nat.add_assoc] at this ⊢)
        (by rw [hrl, h1]; omega) (by omega)
        (by
          intro hne
          apply h4
          cases gs with
          | nil => exact absurd rfl hne
          | cons g' gs' => exact encodeGroups_ne _ _ _)
        (by simp; omega)
      refine ⟨s'', e', ?_, ?_⟩
      · rw [h5]; simp [List.drop_drop]
      · rw [h6, hrl]; omega

theorem header_masks (k : Nat) (hk : k < 4096) :
    ((0x3000 + k) &&& 0x0fff = k ∧ ¬ (0x3000 + k) &&& 0x8000 ≠ 0) ∧
    ((0xb000 + k) &&& 0x0fff = k ∧ (0xb000 + k) &&& 0x8000 ≠ 0) := by
  have e : ∀ x, x &&& 0x0fff = x % 4096 := fun x => Nat.and_two_pow_sub_one_eq_mod x 12
  have f : ∀ x, x &&& 0x8000 ≠ 0 ↔ x / 32768 % 2 = 1 := fun x => and_two_pow_ne_zero x 15
  rw [e, e, f, f]
  omega

theorem block_ok {data post : List Byte} {c : Nat} (b : Block) (hw : b.wf)
    (hd : data.drop c = b.encode ++ post) (out rest : List Byte)
    (hlen : b.denote.length ≤ rest.length) :
    block data c (out ++ rest) out.length = .ok (c + b.encode.length,
      (out ++ b.denote) ++ rest.drop b.denote.length, (out ++ b.denote).length) := by
  have hL := R.length_of_drop hd (by simp [Block.encode, le16])
  simp only [Block.encode, List.append_assoc, List.length_append] at hd hL ⊢
  have hl2 : (le16 b.header).length = 2 := rfl
  have hs : R.slice data c (c + 2) = .ok (le16 b.header) := by
    have := R.slice_of_drop hd (by omega)
    rwa [hl2] at this
  have hd2 := R.drop_add_of_drop hd
  rw [hl2] at hd2
  have hhead : ∀ v, v < 65536 → readHeader (le16 v) = .ok ((v &&& 0x0fff) + 1, v &&& 0x8000 ≠ 0) := by
    intro v hv
    unfold readHeader
    rw [R.require_true (by simp [le16]), R.ok_bind, u16le_le16 (post := []) hv (by simp), R.ok_bind]
    rfl
  unfold block
  rw [hs, R.ok_bind]
  cases b with
  | raw bytes =>
    simp only [Block.wf, Block.body, Block.header, Block.denote] at *
    obtain ⟨m1, _⟩ := header_masks (bytes.length - 1) (by omega)
    rw [hhead _ (by omega), R.ok_bind]
    simp only [m1.1, m1.2, decide_false, Bool.false_eq_true, if_false]
    rw [show bytes.length - 1 + 1 = bytes.length by omega]
    rw [R.require_true (by omega), R.ok_bind, R.require_true (by simp; omega), R.ok_bind,
      R.slice_of_drop hd2 (by omega), R.ok_bind, Lz.splice_literal _ _ _ hlen, R.ok_bind]
    simp only [R.pure_eq, List.append_assoc, List.length_append, hl2]
    congr 2
    omega
  | compressed gs =>
    simp only [Block.wf, Block.body, Block.header, Block.denote] at *
    obtain ⟨w1, w2, w3, w4, w5⟩ := hw
    obtain ⟨_, m1⟩ := header_masks ((encodeGroups 0 gs).length - 1) (by omega)
    rw [hhead _ (by omega), R.ok_bind]
    simp only [m1.1]
    rw [show (encodeGroups 0 gs).length - 1 + 1 = (encodeGroups 0 gs).length by omega]
    rw [R.check_true (by simp), R.ok_bind]
    have hrl := run_length gs.flatten []
    simp only [List.length_nil, Nat.zero_add] at hrl
    unfold decompressBlock
    obtain ⟨s', e, h1, h2⟩ := groups_ok (data := data) (stop := c + 2 + (encodeGroups 0 gs).length) gs
      (encodeGroups 0 gs).length ⟨c + 2, rest, 0, 16, 12, 0x0fff⟩ [] rest (by simp) (by simp) w1
      (by simpa using w2) (by simpa using w3) (by simpa using hd2) (by simp) (by simp)
      (fun _ => start_split) (by rw [← hrl]; exact hlen)
    rw [show List.drop out.length (out ++ rest) = rest by simp, e, R.ok_bind]
    simp only [R.pure_eq, R.ok_bind]
    rw [h1, h2, hrl, hl2]
    simp only [List.length_nil, Nat.zero_add, List.append_assoc]
    rw [show List.take out.length (out ++ rest) = out by simp]
    rw [if_pos (decide_eq_true m1.2), Nat.add_assoc c 2]

theorem denote_pos (b : Block) (hw : b.wf) : 0 < b.denote.length := by
  cases b with
  | raw bytes => exact hw.1
  | compressed gs =>
    obtain ⟨w1, w2, w3, w4, w5⟩ := hw
    have hrl := run_length gs.flatten []
    simp only [Block.denote]
    rw [hrl]
    cases gs with
    | nil => simp [encodeGroups] at w4
    | cons g gs =>
      have hg : 1 ≤ g.length := by
        cases gs with
        | nil => exact w1.1
        | cons g' gs' => have := w1.1; omega
      cases g with
      | nil => simp at hg
      | cons t ts =>
        simp only [List.flatten_cons, List.cons_append, TokensWf] at w2
        simp only [List.flatten_cons, List.cons_append, total, List.map_cons, List.sum_cons]
        have : 1 ≤ t.length := by
          cases t with
          | literal b => exact Nat.le_refl _
          | copy d n => obtain ⟨_, _, h, _⟩ := w2.1; simp only [Token.length]; omega
        omega

theorem loop_ok {data tail : List Byte} (bs : List Block) (fuel c : Nat) (out rest : List Byte)
    (hf : data.length ≤ c + fuel) (hw : ∀ b ∈ bs, b.wf)
    (hd : data.drop c = Spec.Lznt1.encode bs ++ tail)
    (htail : tail = [] ∨ ∃ t, tail = 0#8 :: 0#8 :: t)
    (hlen : (Spec.Lznt1.denote bs).length ≤ rest.length) :
    loop data fuel c (out ++ rest) out.length = .ok
      ((out ++ Spec.Lznt1.denote bs) ++ rest.drop (Spec.Lznt1.denote bs).length,
       (out ++ Spec.Lznt1.denote bs).length) := by
  induction bs generalizing fuel c out rest with
  | nil =>
    unfold loop
    simp only [Spec.Lznt1.encode, Spec.Lznt1.denote, List.flatMap_nil, List.nil_append] at hd ⊢
    rcases htail with h | ⟨t, h⟩
    · rw [h] at hd
      rw [if_neg (by have := List.drop_eq_nil_iff.mp hd; omega)]
      simp
    · rw [h] at hd
      have hL := R.length_of_drop (s := [0#8, 0#8]) hd (by simp)
      simp only [List.length_cons, List.length_nil] at hL
      rw [if_pos (by omega)]
      by_cases hfull : out.length ≥ (out ++ rest).length
      · rw [if_pos hfull]; simp
      · rw [if_neg hfull]
        cases fuel with
        | zero => omega
        | succ fuel =>
          simp only
          have := R.slice_of_drop (s := [0#8, 0#8]) hd (by omega)
          rw [show c + [0#8, 0#8].length = c + 2 from rfl] at this
          rw [R.subU_ok (by omega), R.ok_bind, R.require_true (by omega), R.ok_bind, this, R.ok_bind]
          simp
  | cons b bs ih =>
    have hb := hw b (by simp)
    have hd' : data.drop c = b.encode ++ (Spec.Lznt1.encode bs ++ tail) := by
      rw [hd]; simp [Spec.Lznt1.encode]
    have hL := R.length_of_drop hd' (by simp [Block.encode, le16])
    have hel : b.encode.length = 2 + b.body.length := by simp [Block.encode, le16]; omega
    have hpos := denote_pos b hb
    have hdn : Spec.Lznt1.denote (b :: bs) = b.denote ++ Spec.Lznt1.denote bs := by
      simp [Spec.Lznt1.denote]
    rw [hdn] at hlen ⊢
    simp only [List.length_append] at hlen
    unfold loop
    rw [if_pos (by omega), if_neg (by simp only [List.length_append]; omega)]
    cases fuel with
    | zero => omega
    | succ fuel =>
      simp only
      have hs : R.slice data c (c + 2) = .ok (le16 b.header) := by
        have := R.slice_of_drop (s := le16 b.header) (post := b.body ++ (Spec.Lznt1.encode bs ++ tail))
          (by rw [hd']; simp [Block.encode]) (by omega)
        exact this
      have hnz : le16 b.header ≠ [0#8, 0#8] := by
        have h1 : 0x3000 ≤ b.header ∧ b.header < 65536 := by
          cases b with
          | raw bytes => simp only [Block.wf, Block.header] at hb ⊢; omega
          | compressed gs => simp only [Block.wf, Block.header] at hb ⊢; omega
        intro h
        simp only [le16, List.cons.injEq] at h
        have h2 := congrArg BitVec.toNat h.2.1
        simp only [BitVec.toNat_ofNat] at h2
        omega
      rw [R.subU_ok (by omega), R.ok_bind, R.require_true (by omega), R.ok_bind, hs, R.ok_bind,
        if_neg hnz, block_ok b hb hd' out rest (by omega), R.ok_bind]
      simp only
      rw [ih fuel (c + b.encode.length) (out ++ b.denote) (rest.drop b.denote.length) (by omega)
        (fun b' h => hw b' (by simp [h])) (R.drop_add_of_drop hd') (by simp; omega)]
      simp [List.drop_drop]

/-! ## Arbitrary input -/

theorem u16le_sat {data : List Byte} {c : Nat} (h : c + 2 ≤ data.length) :
    R.Sat (u16le data c) fun v => v < 65536 := by
  unfold u16le
  rw [R.slice_ok (by omega) h, R.ok_bind]
  refine R.sat_pure ?_
  have := leNat_lt ((data.drop c).take (c + 2 - c))
  rw [List.length_take] at this
  calc _ < _ := this
    _ ≤ 256 ^ 2 := Nat.pow_le_pow_right (by omega) (by omega)

theorem copyMatch_sat (n : Nat) (buf : List Byte) (dst src : Nat) (hs : src ≤ dst)
    (hd : dst + n ≤ buf.length) :
    R.Sat (Lz.copyMatch n buf dst src) fun b =>
      b.length = buf.length ∧ b.drop (dst + n) = buf.drop (dst + n) := by
  induction n generalizing buf dst src with
  | zero => exact R.sat_ok ⟨rfl, rfl⟩
  | succ n ih =>
    unfold Lz.copyMatch
    refine R.Sat.bind (R.sat_get (by omega)) fun v _ => ?_
    rw [R.set_ok (by omega), R.ok_bind]
    refine R.Sat.mono (ih (buf.set dst v) (dst + 1) (src + 1) (by omega) (by simp; omega)) ?_
    rintro b ⟨h1, h2⟩
    refine ⟨by simpa using h1, ?_⟩
    rw [show dst + (n + 1) = dst + 1 + n by omega, h2, List.drop_set_of_lt (by omega)]

theorem drop_later {α} {a b : List α} {i j : Nat} (h : a.drop i = b.drop i) (hij : i ≤ j) :
    a.drop j = b.drop j := by
  have := congrArg (List.drop (j - i)) h
  rwa [List.drop_drop, List.drop_drop, show i + (j - i) = j by omega] at this

/-- The invariant of a block: `c0` is where its body starts. A tuple expands little once the output
is long, so the output offset stays below the value at which the shift would reach 0. -/
structure Inv (data : List Byte) (c0 : Nat) (buf : List Byte) (s : St) : Prop where
  start : c0 ≤ s.c
  bound : s.c ≤ data.length
  len : s.buf.length = buf.length
  off : s.o ≤ s.buf.length
  grow : s.o ≤ 4114 + 5 * (s.c - c0)
  rest : s.buf.drop s.o = buf.drop s.o

theorem grow_step {o sh t m n : Nat} (h : Split o sh t m) (hn : n ≤ 2 ^ sh + 2) :
    o + n ≤ 4114 ∨ n ≤ 10 := by
  obtain ⟨h1, _, h3, h4, h5⟩ := h
  rw [h3] at h4
  have : sh = 0 ∨ sh = 1 ∨ sh = 2 ∨ sh = 3 ∨ sh = 4 ∨ sh = 5 ∨ sh = 6 ∨ sh = 7 ∨ sh = 8 ∨ sh = 9 ∨
      sh = 10 ∨ sh = 11 ∨ sh = 12 := by
    omega
  rcases this with rfl | rfl | rfl | rfl | rfl | rfl | rfl | rfl | rfl | rfl | rfl | rfl | rfl <;>
    simp at h4 h5 hn <;> omega

theorem token_sat {data buf : List Byte} {c0 : Nat} (fl : Nat) (s : St) (hi : Inv data c0 buf s)
    (hsp : Split s.o s.shift s.threshold s.mask) (hs : 1 ≤ s.shift) :
    R.Sat (token data fl s) fun r =>
      (∀ th sh mk, Inv data c0 buf ⟨r.1, r.2.1, r.2.2, th, sh, mk⟩) ∧ s.c < r.1 ∧ r.1 ≤ s.c + 2 ∧
        s.o ≤ r.2.2 := by
  obtain ⟨i1, i2, i3, i4, i5, i6⟩ := hi
  unfold token
  refine R.sat_ite (fun _ => ?_) (fun _ => ?_)
  · refine R.Sat.bind (R.sat_subU i2) fun x hx => ?_
    refine R.Sat.bind R.sat_require fun _ h1 => ?_
    refine R.Sat.bind (u16le_sat (by omega)) fun v hv => ?_
    have hp : (2 : Nat) ≤ 2 ^ s.shift := by
      calc (2 : Nat) = 2 ^ 1 := rfl
        _ ≤ 2 ^ s.shift := Nat.pow_le_pow_right (by omega) hs
    have hp2 : 2 ^ s.shift ≤ 4096 := by
      calc 2 ^ s.shift ≤ 2 ^ 12 := Nat.pow_le_pow_right (by omega) hsp.le
        _ = 4096 := rfl
    have hd : v >>> s.shift ≤ v / 2 := by
      rw [Nat.shiftRight_eq_div_pow]
      exact Nat.div_le_div_left hp (by omega)
    have hm : v &&& s.mask < 2 ^ s.shift := by
      rw [hsp.hmask, Nat.and_two_pow_sub_one_eq_mod]
      exact Nat.mod_lt _ (by omega)
    generalize v >>> s.shift = q at hd ⊢
    rw [R.addU_ok (by omega), R.ok_bind, R.addU_ok (by omega), R.ok_bind]
    refine R.Sat.bind R.sat_require fun _ h2 => ?_
    refine R.Sat.bind (R.sat_subU i4) fun y hy => ?_
    refine R.Sat.bind R.sat_require fun _ h3 => ?_
    refine R.Sat.bind (copyMatch_sat _ s.buf s.o _ (by omega) (by omega)) fun b hb => ?_
    obtain ⟨b1, b2⟩ := hb
    refine R.sat_pure ⟨fun th sh mk => ⟨?_, ?_, ?_, ?_, ?_, ?_⟩, ?_, ?_, ?_⟩ <;> simp only
    · omega
    · omega
    · omega
    · omega
    · rcases grow_step hsp (n := (v &&& s.mask) + 3) (by omega) with h | h <;> omega
    · rw [b2]; exact drop_later i6 (by omega)
    · omega
    · omega
    · omega
  · refine R.Sat.bind R.sat_require fun _ h1 => ?_
    refine R.Sat.bind R.sat_require fun _ h2 => ?_
    refine R.Sat.bind (R.sat_get h1) fun v _ => ?_
    rw [R.set_ok h2, R.ok_bind]
    refine R.sat_pure ⟨fun th sh mk => ⟨?_, ?_, ?_, ?_, ?_, ?_⟩, ?_, ?_, ?_⟩ <;> simp only
    · omega
    · omega
    · simp; omega
    · simp; omega
    · omega
    · rw [List.drop_set_of_lt (by omega)]; exact drop_later i6 (by omega)
    · omega
    · omega
    · omega

theorem tokens_sat {data buf : List Byte} {c0 stop : Nat} (hst : stop ≤ c0 + 4096) (n fl : Nat) (s : St)
    (hi : Inv data c0 buf s) (hlt : s.c ≤ stop)
    (hsp : Split s.o s.shift s.threshold s.mask) (hs : 1 ≤ s.shift) :
    R.Sat (tokens data stop n fl s) fun r => Inv data c0 buf r ∧ s.c ≤ r.c ∧
      (r.c < stop → Split r.o r.shift r.threshold r.mask ∧ 1 ≤ r.shift) := by
  induction n generalizing fl s with
  | zero => exact R.sat_ok ⟨hi, Nat.le_refl _, fun _ => ⟨hsp, hs⟩⟩
  | succ n ih =>
    unfold tokens
    refine R.Sat.bind (token_sat fl s hi hsp hs) fun r hr => ?_
    obtain ⟨c, b, o⟩ := r
    obtain ⟨r1, r2, r3, r4⟩ := hr
    simp only at r1 r2 r3 r4 ⊢
    refine R.sat_ite (fun h => ?_) (fun h => ?_)
    · exact R.sat_pure ⟨r1 _ _ _, by simp only; omega, by simp only; omega⟩
    · have hg := (r1 0 0 0).grow
      simp only at hg
      obtain ⟨th, sh, mk, e, hsp', h1, h2⟩ := adjust_ok (o := o) hsp.le hsp.hmask hsp.hthreshold
        (fun h => by have := hsp.lower h; omega) (by omega)
      rw [e, R.ok_bind]
      simp only
      refine R.Sat.mono (ih (fl >>> 1) ⟨c, b, o, th, sh, mk⟩ (r1 _ _ _) (by simp only; omega) hsp' h1) ?_
      rintro r ⟨q1, q2, q3⟩
      simp only at q2
      exact ⟨q1, by omega, q3⟩

theorem groups_sat {data buf : List Byte} {c0 stop : Nat} (hst : stop ≤ c0 + 4096) (fuel : Nat) (s : St)
    (hf : stop ≤ s.c + fuel) (hi : Inv data c0 buf s)
    (hsp : s.c < stop → Split s.o s.shift s.threshold s.mask ∧ 1 ≤ s.shift) :
    R.Sat (groups data stop fuel s) fun r => Inv data c0 buf r := by
  induction fuel generalizing s with
  | zero =>
    unfold groups
    rw [if_neg (by omega)]
    exact R.sat_ok hi
  | succ fuel ih =>
    unfold groups
    refine R.sat_ite (fun h1 => ?_) (fun _ => R.sat_ok hi)
    refine R.sat_ite (fun _ => R.sat_ok hi) (fun h2 => ?_)
    simp only
    refine R.Sat.bind (R.sat_get (by omega)) fun fl _ => ?_
    obtain ⟨i1, i2, i3, i4, i5, i6⟩ := hi
    have hi' : Inv data c0 buf { s with c := s.c + 1 } :=
      ⟨by simp only; omega, by simp only; omega, i3, i4, by simp only; omega, i6⟩
    refine R.Sat.bind (tokens_sat hst 8 fl.toNat _ hi' (by simp only; omega) (hsp h1).1 (hsp h1).2)
      fun r hr => ?_
    obtain ⟨r1, r2, r3⟩ := hr
    simp only at r2
    exact ih r (by omega) r1 r3

theorem readHeader_sat (h : List Byte) (hl : h.length = 2) :
    R.Sat (readHeader h) fun r => 1 ≤ r.1 ∧ r.1 ≤ 4096 := by
  unfold readHeader
  refine R.Sat.bind R.sat_require fun _ _ => ?_
  refine R.Sat.bind (u16le_sat (by omega)) fun v hv => ?_
  refine R.sat_pure ?_
  have e : v &&& 0x0fff = v % 4096 := Nat.and_two_pow_sub_one_eq_mod v 12
  simp only [e]
  omega

theorem block_sat (data : List Byte) (c : Nat) (buf : List Byte) (o : Nat)
    (hc : c + 2 ≤ data.length) (ho : o ≤ buf.length) :
    R.Sat (block data c buf o) fun r => c + 2 ≤ r.1 ∧ r.2.1.length = buf.length ∧ r.2.2 ≤ buf.length ∧
      o ≤ r.2.2 ∧ r.2.1.drop r.2.2 = buf.drop r.2.2 := by
  unfold block
  refine R.Sat.bind (R.sat_slice (by omega) hc) fun h hh => ?_
  refine R.Sat.bind (readHeader_sat h (by rw [hh]; simp; omega)) fun r hr => ?_
  obtain ⟨size, compressed⟩ := r
  simp only at hr ⊢
  refine R.sat_ite (fun _ => ?_) (fun _ => ?_)
  · refine R.Sat.bind (R.sat_check ho) fun _ _ => ?_
    unfold decompressBlock
    simp only [bind_assoc, pure_bind]
    have hi : Inv data (c + 2) (buf.drop o) ⟨c + 2, buf.drop o, 0, 16, 12, 0x0fff⟩ :=
      ⟨Nat.le_refl _, hc, rfl, Nat.zero_le _, by simp, rfl⟩
    refine R.Sat.bind (groups_sat (c0 := c + 2) (by omega) size _ (by simp) hi
      (fun _ => ⟨start_split, by simp⟩)) fun s hs => ?_
    obtain ⟨i1, i2, i3, i4, i5, i6⟩ := hs
    simp only [List.length_drop] at i3
    refine R.sat_pure ⟨by simp, ?_, by simp only; omega, by simp, ?_⟩
    · simp; try omega
    · simp only
      rw [List.drop_append, List.drop_eq_nil_of_le (by simp), List.nil_append, List.length_take,
        Nat.min_eq_left ho, show o + s.o - o = s.o by omega, i6, List.drop_drop]
  · refine R.Sat.bind R.sat_require fun _ h1 => ?_
    refine R.Sat.bind R.sat_require fun _ h2 => ?_
    refine R.Sat.bind (R.sat_slice (by omega) (by omega)) fun bytes hb => ?_
    have hbl : bytes.length = size := by rw [hb]; simp; omega
    rw [R.splice_ok (by omega) (by omega) (by omega), R.ok_bind]
    refine R.sat_pure ⟨by simp, ?_, by simp only; omega, by simp only; omega, ?_⟩
    · simp; omega
    · exact List.drop_left' (by simp; omega)

theorem loop_sat (data : List Byte) (fuel c : Nat) (buf : List Byte) (o : Nat)
    (hf : data.length ≤ c + fuel) (ho : o ≤ buf.length) :
    R.Sat (loop data fuel c buf o) fun r =>
      r.1.length = buf.length ∧ o ≤ r.2 ∧ r.2 ≤ buf.length ∧ r.1.drop r.2 = buf.drop r.2 := by
  induction fuel generalizing c buf o with
  | zero =>
    unfold loop
    rw [if_neg (by omega)]
    exact R.sat_ok ⟨rfl, Nat.le_refl _, ho, rfl⟩
  | succ fuel ih =>
    unfold loop
    refine R.sat_ite (fun h1 => ?_) (fun _ => R.sat_ok ⟨rfl, Nat.le_refl _, ho, rfl⟩)
    refine R.sat_ite (fun _ => R.sat_ok ⟨rfl, Nat.le_refl _, ho, rfl⟩) (fun h2 => ?_)
    simp only
    refine R.Sat.bind (R.sat_subU (by omega)) fun x hx => ?_
    refine R.Sat.bind R.sat_require fun _ h3 => ?_
    refine R.Sat.bind (R.sat_slice (by omega) (by omega)) fun h _ => ?_
    refine R.sat_ite (fun _ => R.sat_pure ⟨rfl, Nat.le_refl _, ho, rfl⟩) (fun _ => ?_)
    refine R.Sat.bind (block_sat data c buf o (by omega) ho) fun r hr => ?_
    obtain ⟨c1, b1, o1⟩ := r
    obtain ⟨r1, r2, r3, r4, r5⟩ := hr
    simp only at r1 r2 r3 r4 r5 ⊢
    refine R.Sat.mono (ih c1 b1 o1 (by omega) (by omega)) ?_
    rintro ⟨rb, ro⟩ ⟨q1, q2, q3, q4⟩
    simp only at q1 q2 q3 q4 ⊢
    exact ⟨by omega, by omega, by omega, by rw [q4, drop_later r5 q2]⟩

end Keramics.Lznt1

namespace Keramics.Props
open Keramics.Spec.Lznt1

/-- C24, decoding: the encoding of any list of well-formed blocks, ended by the end of the data or by
a zero header followed by anything, decompresses into any buffer that is large enough to the bytes
the blocks denote; the rest of the buffer is left as it was. -/
theorem C24_lznt1_decode (bs : List Block) (hw : ∀ b ∈ bs, b.wf) (tail buf : List Byte)
    (htail : tail = [] ∨ ∃ t, tail = 0#8 :: 0#8 :: t) (hbuf : (denote bs).length ≤ buf.length) :
    Lznt1.decompress (encode bs ++ tail) buf
      = .ok (denote bs ++ buf.drop (denote bs).length, (denote bs).length) := by
  have := Lznt1.loop_ok (data := encode bs ++ tail) bs (encode bs ++ tail).length 0 [] buf (by omega)
    hw (List.drop_zero) htail hbuf
  simpa [Lznt1.decompress] using this

/-- C24, arbitrary input: decompression of any bytes into any buffer does not panic (no access is out
of bounds and no 16-bit addition overflows), keeps the buffer's length, reports at most that length,
and leaves the bytes after the reported size as they were. -/
theorem C24_lznt1_bounds (data buf : List Byte) :
    Lznt1.decompress data buf ≠ .panic ∧
    ∀ out size, Lznt1.decompress data buf = .ok (out, size) →
      out.length = buf.length ∧ size ≤ buf.length ∧ out.drop size = buf.drop size := by
  have h := Lznt1.loop_sat data data.length 0 buf 0 (by omega) (by omega)
  refine ⟨h.ne_panic, fun out size e => ?_⟩
  obtain ⟨h1, _, h2, h3⟩ := h.of_ok e
  exact ⟨h1, h2, h3⟩

/-- Three literals, an overlapping match of 20 bytes, then a match with 5 distance bits, in a block
followed by a raw block. -/
example :
    let bs := [Block.compressed [[.literal 1#8, .literal 2#8, .literal 3#8, .copy 3 20, .copy 23 4]],
      Block.raw [7#8]]
    (∀ b ∈ bs, b.wf) ∧ (denote bs).length = 28 ∧
      Lznt1.decompress (encode bs) (List.replicate 29 9#8) = .ok (denote bs ++ [9#8], 28) := by
  refine ⟨?_, by decide +kernel, by decide +kernel⟩
  simp [Block.wf, GroupsWf, TokensWf, Token.wf, Token.length, lengthBits, distanceBits, total,
    encodeGroups, elements, Token.encode, le16]

end Keramics.Props
