import Verif.Lemmas.LzfseHeader
import Verif.Props.Lzvn

/-! # Streams of LZFSE blocks -/

namespace Keramics.Lzfse
open Keramics.Spec.Lzfse
open Keramics.Spec (Lz.run Lz.Ok Lz.Op.run Lz.Op.ok Lz.copy)

theorem copy_prefix (d n : Nat) (out : List Byte) : out <+: Lz.copy d n out := by
  induction n generalizing out with
  | zero => exact List.prefix_refl _
  | succ n ih => exact (List.prefix_append _ _).trans (ih _)

theorem lz_prefix (out : List Byte) (l : List Spec.Lz.Op) : out <+: Lz.run out l := by
  induction l generalizing out with
  | nil => exact List.prefix_refl _
  | cons op l ih =>
    refine List.IsPrefix.trans ?_ (ih (op.run out))
    cases op with
    | literal bytes => exact List.prefix_append _ _
    | copy d n => exact copy_prefix d n out

theorem block_prefix (out : List Byte) (b : Block) : out <+: b.run out := by
  cases b with
  | raw bytes => exact List.prefix_append _ _
  | lzvn tokens rest => exact List.prefix_append _ _
  | coded c => exact lz_prefix _ _

theorem run_prefix (out : List Byte) (bs : List Block) : out <+: Spec.Lzfse.run out bs := by
  induction bs generalizing out with
  | nil => exact List.prefix_refl _
  | cons b bs ih => exact (block_prefix out b).trans (ih _)

theorem u32_drop {data x y : List Byte} {off : Nat} (h : data.drop off = x ++ y) (hx : x.length = 4) :
    u32le data off = .ok (leNat x) := by
  have hlen := congrArg List.length h
  rw [List.length_drop, List.length_append] at hlen
  unfold u32le
  rw [R.slice_ok (by omega) (by omega), R.ok_bind, h, Nat.add_sub_cancel_left, List.take_left' hx]; rfl

theorem drop_next {data x y : List Byte} {off n : Nat} (h : data.drop off = x ++ y) (hx : x.length = n) :
    data.drop (off + n) = y := by
  rw [← List.drop_drop, h, List.drop_left' hx]

theorem drop_length {data x y : List Byte} {off : Nat} (h : data.drop off = x ++ y) (ho : off ≤ data.length) :
    data.length = off + x.length + y.length := by
  have := congrArg List.length h
  rw [List.length_drop, List.length_append] at this
  omega

/-- The bits of a payload in the data, after the unused ones. -/
theorem payload_ok {data payload y : List Byte} {off unused : Nat} {bs : List Bool} (ho : off ≤ data.length) (h1 : 1 ≤ off)
    (hd : data.drop off = payload ++ y) (hu : unused ≤ 7) (hh : Holds unused payload bs) :
    ∃ r, Inv data (getValue data unused ⟨off + payload.length, 0, 0⟩).2 ∧
      rem data (getValue data unused ⟨off + payload.length, 0, 0⟩).2 = bs ++ r := by
  have hlen := drop_length hd ho
  have htake : data.take (off + payload.length) = data.take off ++ payload := by
    rw [List.take_add, hd, List.take_left]
  have hrem : rem data ⟨off + payload.length, 0, 0⟩ = backBits payload ++ backBits (data.take off) := by
    simp only [rem, htake, backBits_append, Spec.Huffman.bits, List.nil_append]
  have hinv : Inv data ⟨off + payload.length, 0, 0⟩ := ⟨by simp, by simp, by simp only; omega⟩
  have hl : unused ≤ (backBits payload ++ backBits (data.take off)).length := by
    rw [List.length_append, backBits_length, backBits_length, List.length_take]; omega
  obtain ⟨a, b⟩ := skip_ok (size := unused) (a := (backBits payload ++ backBits (data.take off)).take unused)
    (r := (backBits payload ++ backBits (data.take off)).drop unused) (by omega) hinv
    (by rw [List.length_take]; omega) (by rw [hrem, List.take_append_drop])
  obtain ⟨r, hr⟩ := hh
  refine ⟨r ++ (backBits (data.take off)).drop (unused - (backBits payload).length), a, ?_⟩
  rw [b, List.drop_append, ← hr, List.append_assoc]

/-- The start of decoding a coded block: what the bit streams and tables are. -/
theorem block_start {c : Coded} (h : c.Wf) {t : Tables} (ht : TablesOk c t) {data rest buf : List Byte} {off out : Nat}
    (ho : off ≤ data.length) (h1 : 1 ≤ off) (hd : data.drop off = c.literalData ++ (c.stepData ++ rest)) :
    ∃ s r, Inv data s ∧ rem data s = (codeSteps c c.steps).2 ++ r ∧
      block data (header c) t off buf out = (do
        let (buf, out) ← lmdLoop data c.literals t c.steps.length
          ⟨out, 0, 0, (codeSteps c c.steps).1.l, (codeSteps c c.steps).1.m, (codeSteps c c.steps).1.d⟩ s buf
        pure (off + c.literalData.length + c.stepData.length, buf, out)) := by
  have hlen := drop_length hd ho
  rw [List.length_append] at hlen
  have hd2 := drop_next hd rfl
  obtain ⟨r1, i1, e1⟩ := payload_ok ho h1 hd h.unused.1 h.literalData
  obtain ⟨r2, i2, e2⟩ := payload_ok (off := off + c.literalData.length) (by omega) (by omega) hd2 h.unused.2 h.stepData
  refine ⟨_, r2, i2, e2, ?_⟩
  have hcount := h.count
  have hfour := h.four
  have hlits := readLiterals_ok h.literal.2.1 ht.literal h.literalEnd ((c.literals.length + 3) / 4) c.literals (by omega) h.has i1 e1
  have eu1 : (-(header c).literalBits).toNat = c.literalUnused := by simp [header]
  have eu2 : (-(header c).lmdBits).toNat = c.stepUnused := by simp [header]
  have hu := h.unused
  have hlv : literalValues data (header c) t.literal (off + c.literalData.length) = .ok c.literals := by
    unfold literalValues
    rw [R.require_true (by simp only [header, maxLiterals]; omega), R.ok_bind, R.require_true (by simp only [header]; omega), R.ok_bind, eu1]
    exact hlits
  unfold block
  rw [R.subU_ok ho, R.ok_bind, R.require_true (by simp only [header]; omega), R.ok_bind]
  simp only [show (header c).literalsSize = c.literalData.length from rfl, show (header c).lmdSize = c.stepData.length from rfl]
  rw [hlv, R.ok_bind, R.subU_ok (by omega), R.ok_bind, R.require_true (by omega), R.ok_bind]
  unfold lmdValues
  rw [R.require_true (by simp only [header]; omega), R.ok_bind, eu2]
  rfl

theorem coded_ok {c : Coded} (h : c.Wf) {data rest out tail : List Byte} {off : Nat} {st : St} (ho : off ≤ data.length) (h1 : 1 ≤ off)
    (hd : data.drop off = c.literalData ++ (c.stepData ++ rest)) (hout : st.out = out.length) (hbuf : st.buf = out ++ tail)
    (hok : Lz.Ok out (ops c.literals 0 c.steps))
    (hroom : (Lz.run out (ops c.literals 0 c.steps)).length ≤ out.length + tail.length) (h31 : out.length + tail.length < 2 ^ 31) :
    coded data st (header c, c.lFreqs ++ c.mFreqs ++ c.dFreqs ++ c.literalFreqs, off)
      = .ok ⟨off + c.literalData.length + c.stepData.length, (Lz.run out (ops c.literals 0 c.steps)).length,
          c.lFreqs ++ c.mFreqs ++ c.dFreqs ++ c.literalFreqs, Lz.run out (ops c.literals 0 c.steps) ++
            tail.drop ((Lz.run out (ops c.literals 0 c.steps)).length - out.length)⟩ := by
  obtain ⟨t, e, ht⟩ := tables_ok h
  obtain ⟨s, r, i, hr, eb⟩ := block_start h ht (buf := st.buf) (out := st.out) ho h1 hd
  have hl := lmdLoop_ok h ht c.steps h.steps (index := 0) (before := 0) (by have := h.used; omega) out tail
    (by rw [List.drop_zero]; exact hok) (by rw [List.drop_zero]; exact hroom) h31 i hr
  rw [List.drop_zero] at hl
  unfold coded
  simp only
  rw [e, R.ok_bind, eb, hout, hbuf, hl, R.ok_bind]
  rfl

/-- What the theorem asks of a block beyond the format: a coded block has at least 4 bytes of data. -/
def Handled : Block → Prop
  | .coded c => 4 ≤ c.literalData.length + c.stepData.length
  | _ => True

theorem marker_of (a : Byte) : leNat [0x62#8, 0x76#8, 0x78#8, a] = 0x787662 + 0x1000000 * a.toNat := by
  simp [leNat]; omega

/-- A turn of the loop reads a block. -/
theorem turn_ok {data rest out orig : List Byte} {st : St} {b : Block} (ho : st.off ≤ data.length)
    (hd : data.drop st.off = b.encode out ++ rest) (h4 : 4 ≤ rest.length) (hb : b.Ok out) (hh : Handled b)
    (hout : st.out = out.length) (hbuf : st.buf = out ++ orig.drop out.length)
    (hroom : (b.run out).length ≤ orig.length) (h31 : orig.length < 2 ^ 31) :
    ∃ fs, turn data st = .ok (some ⟨st.off + (b.encode out).length, (b.run out).length, fs,
      b.run out ++ orig.drop (b.run out).length⟩) := by
  have hpre := (block_prefix out b).length_le
  have hlen := drop_length hd ho
  have hblen : st.buf.length = orig.length := by rw [hbuf, List.length_append, List.length_drop]; omega
  unfold turn
  cases b with
  | raw bytes =>
    simp only [Block.encode, Block.run, List.append_assoc] at hd hlen hroom hpre ⊢
    have hm := u32_drop hd rfl
    have hd1 := drop_next hd (n := 4) rfl
    have hs := u32_drop hd1 (le_length _ _)
    have hd2 := drop_next hd1 (n := 4) (le_length _ _)
    rw [Nat.add_assoc] at hd2
    simp only [List.length_append, le_length, Nat.add_sub_cancel_left, List.length_cons, List.length_nil] at hlen hroom hs ⊢
    rw [leNat_le (by omega)] at hs
    rw [R.subU_ok (by omega), R.ok_bind, R.require_true (by omega), R.ok_bind, hm, R.ok_bind, marker_of,
      if_neg (by decide), R.require_true (by decide), R.ok_bind, R.subU_ok (by omega), R.ok_bind, R.require_true (by omega), R.ok_bind, hs,
      R.ok_bind, hout, R.subU_ok (by omega), R.ok_bind, R.require_true (by omega), R.ok_bind]
    unfold dispatch
    rw [if_pos (by decide)]
    simp only
    rw [R.subU_ok (by omega), R.ok_bind, R.require_true (by omega), R.ok_bind, R.slice_ok (by omega) (by omega), R.ok_bind,
      Nat.add_sub_cancel_left, hd2, List.take_left, hbuf, Lz.splice_literal _ _ _ (by rw [List.length_drop]; omega), R.ok_bind, R.pure_eq,
      R.ok_bind]
    refine ⟨st.frequencies, ?_⟩
    rw [List.drop_drop]
    simp only [R.pure_eq]
    congr 3
    · omega
    · rw [List.append_assoc]
  | lzvn tokens extra =>
    obtain ⟨hv, htail, hsz⟩ := hb
    simp only [Block.encode, Block.run, List.append_assoc] at hd hlen hroom hpre hsz ⊢
    have hm := u32_drop hd rfl
    have hd1 := drop_next hd (n := 4) rfl
    have hs := u32_drop hd1 (le_length _ _)
    have hd2 := drop_next hd1 (n := 4) (le_length _ _)
    rw [Nat.add_assoc] at hd2
    have hn := u32_drop hd2 (le_length _ _)
    have hd3 := drop_next hd2 (n := 4) (le_length _ _)
    rw [leNat_le hsz] at hn
    simp only [List.length_append, le_length, Nat.add_sub_cancel_left, List.length_cons, List.length_nil] at hlen hroom hs hn hsz ⊢
    rw [leNat_le (by omega)] at hs
    rw [R.subU_ok (by omega), R.ok_bind, R.require_true (by omega), R.ok_bind, hm, R.ok_bind, marker_of,
      if_neg (by decide), R.require_true (by decide), R.ok_bind, R.subU_ok (by omega), R.ok_bind, R.require_true (by omega), R.ok_bind, hs,
      R.ok_bind, hout, R.subU_ok (by omega), R.ok_bind, R.require_true (by omega), R.ok_bind]
    unfold dispatch
    rw [if_neg (by decide), if_neg (by decide), if_neg (by decide)]
    simp only
    have hwin : ((orig.drop out.length).take (Spec.Lzvn.denote tokens).length).length = (Spec.Lzvn.denote tokens).length := by
      rw [List.length_take, List.length_drop]; omega
    have hz := Props.C25_lzvn_decode tokens hv extra ((orig.drop out.length).take (Spec.Lzvn.denote tokens).length) htail (by omega)
    rw [R.subU_ok (by omega), R.ok_bind, R.require_true (by omega), R.ok_bind, hn, R.ok_bind, R.subU_ok (by omega), R.ok_bind,
      R.require_true (by omega), R.ok_bind, R.slice_ok (by omega) (by omega), R.ok_bind,
      Nat.add_sub_cancel_left, hd3, ← List.append_assoc, List.take_left' (by simp), hbuf, R.slice_ok (by omega) (by rw [List.length_append, List.length_drop]; omega),
      R.ok_bind, Nat.add_sub_cancel_left, List.drop_left, hz, R.ok_bind]
    simp only
    have hnil : ((orig.drop out.length).take (Spec.Lzvn.denote tokens).length).drop (Spec.Lzvn.denote tokens).length = [] :=
      List.drop_eq_nil_of_le (by omega)
    rw [hnil, List.append_nil, Lz.splice_literal _ _ _ (by rw [List.length_drop]; omega), R.ok_bind, R.pure_eq, R.ok_bind]
    refine ⟨st.frequencies, ?_⟩
    rw [List.drop_drop]
    simp only [R.pure_eq]
    congr 3
    · omega
    · rw [List.append_assoc]
  | coded c =>
    obtain ⟨hw, hok⟩ := hb
    simp only [Handled] at hh
    simp only [Block.encode, Block.run, List.append_assoc] at hd hlen hroom hpre ⊢
    have hm := u32_drop hd rfl
    have hd1 := drop_next hd (n := 4) rfl
    have hs := u32_drop hd1 (le_length _ _)
    have hd2 := drop_next hd1 (n := 4) (le_length _ _)
    rw [Nat.add_assoc] at hd2
    have henc : c.encode.length = 24 + c.table.length + c.literalData.length + c.stepData.length := by
      simp [Coded.encode, le_length]; omega
    simp only [List.length_append, le_length, List.length_cons, List.length_nil] at hlen hs ⊢
    rw [leNat_le (by omega)] at hs
    rw [R.subU_ok (by omega), R.ok_bind, R.require_true (by omega), R.ok_bind, hm, R.ok_bind, marker_of,
      if_neg (by decide), R.require_true (by decide), R.ok_bind, R.subU_ok (by omega), R.ok_bind, R.require_true (by omega), R.ok_bind, hs,
      R.ok_bind, hout, R.subU_ok (by omega), R.ok_bind, R.require_true (by omega), R.ok_bind]
    unfold dispatch
    rw [if_neg (by decide), if_neg (by decide), if_pos (by decide)]
    simp only
    rw [blockV2_ok hw (by omega) hd2 (by omega), R.ok_bind]
    have hd3 : data.drop (st.off + 8 + 24 + c.table.length) = c.literalData ++ (c.stepData ++ rest) := by
      rw [Nat.add_assoc, ← List.drop_drop, hd2, Coded.encode]
      simp only [List.append_assoc]
      rw [← List.append_assoc, ← List.append_assoc, ← List.append_assoc, List.drop_left' (by simp [le_length]; omega)]
    have hc := coded_ok hw (st := { st with off := st.off + 8 }) (by omega) (by omega) hd3 hout hbuf hok
      (by rw [List.length_drop]; omega) (by rw [List.length_drop]; omega)
    rw [hout] at hc
    rw [hc, R.ok_bind]
    refine ⟨c.lFreqs ++ c.mFreqs ++ c.dFreqs ++ c.literalFreqs, ?_⟩
    rw [List.drop_drop]
    simp only [R.pure_eq]
    congr 3
    · rw [henc]; omega
    · congr 2; omega

theorem encode_length (out : List Byte) (b : Block) : 8 ≤ (b.encode out).length := by
  cases b <;> simp [Block.encode, le_length] <;> omega

theorem stream_length (out : List Byte) (bs : List Block) : bs.length + 4 ≤ (Spec.Lzfse.encode out bs).length := by
  induction bs generalizing out with
  | nil => simp [Spec.Lzfse.encode]
  | cons b bs ih =>
    have := ih (b.run out)
    have := encode_length out b
    simp only [Spec.Lzfse.encode, List.length_append, List.length_cons]
    omega

theorem loop_ok {data tail orig : List Byte} (h31 : orig.length < 2 ^ 31) (bs : List Block) (fuel : Nat) (hf : bs.length < fuel)
    (out : List Byte) {st : St} (ho : st.off ≤ data.length) (hd : data.drop st.off = Spec.Lzfse.encode out bs ++ tail)
    (hok : Spec.Lzfse.Ok out bs) (hh : ∀ b ∈ bs, Handled b) (hout : st.out = out.length)
    (hbuf : st.buf = out ++ orig.drop out.length) (hroom : (Spec.Lzfse.run out bs).length ≤ orig.length) :
    loop data fuel st = .ok (Spec.Lzfse.run out bs ++ orig.drop (Spec.Lzfse.run out bs).length, (Spec.Lzfse.run out bs).length) := by
  induction bs generalizing fuel out st with
  | nil =>
    obtain ⟨fuel, rfl⟩ : ∃ k, fuel = k + 1 := ⟨fuel - 1, by omega⟩
    simp only [Spec.Lzfse.encode, Spec.Lzfse.run] at hd hroom ⊢
    have hlen := drop_length hd ho
    unfold loop
    by_cases hc : st.off < data.length ∧ ¬ st.out ≥ st.buf.length
    · rw [if_pos hc]
      unfold turn
      rw [R.subU_ok ho, R.ok_bind, R.require_true (by simp only [List.length_cons, List.length_nil] at hlen; omega), R.ok_bind,
        u32_drop hd rfl, R.ok_bind, if_pos (by decide), R.ok_bind]
      simp only [continueWith, hbuf, hout]
    · rw [if_neg hc, hbuf, hout]
  | cons b bs ih =>
    obtain ⟨fuel, rfl⟩ : ∃ k, fuel = k + 1 := ⟨fuel - 1, by omega⟩
    simp only [Spec.Lzfse.encode, Spec.Lzfse.run, Spec.Lzfse.Ok, List.append_assoc] at hd hroom hok ⊢
    have hlen := drop_length hd ho
    have hge := encode_length out b
    have hblen : st.buf.length = orig.length := by
      have := ((block_prefix out b).trans (run_prefix _ bs)).length_le
      rw [hbuf, List.length_append, List.length_drop]; omega
    unfold loop
    by_cases hc : st.off < data.length ∧ ¬ st.out ≥ st.buf.length
    · rw [if_pos hc]
      have hsl := stream_length (b.run out) bs
      obtain ⟨fs, e⟩ := turn_ok (orig := orig) ho hd (by rw [List.length_append]; omega) hok.1 (hh b List.mem_cons_self) hout hbuf
        (Nat.le_trans (run_prefix _ bs).length_le hroom) h31
      rw [e, R.ok_bind]
      simp only [continueWith]
      have hd2 := drop_next hd rfl
      exact ih fuel (by simp at hf; omega) (b.run out) (st := ⟨_, _, _, _⟩) (by simp only; omega) hd2 hok.2
        (fun x hx => hh x (List.mem_cons_of_mem _ hx)) rfl rfl hroom
    · rw [if_neg hc]
      have hp := (block_prefix out b).trans (run_prefix (b.run out) bs)
      have e : Spec.Lzfse.run (b.run out) bs = out := by
        symm
        apply List.IsPrefix.eq_of_length hp
        have := hp.length_le
        omega
      rw [e, hbuf, hout]

end Keramics.Lzfse
