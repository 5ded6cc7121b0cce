import Verif.Props.Deflate
import Verif.Model.Zlib
import Verif.Spec.Zlib
import Verif.Lemmas.Adler32
import Verif.Base.Bits

/-! # C28 zlib checksum -/

namespace Keramics.Zlib
open Keramics.Spec.Zlib Keramics.Spec.Deflate

theorem headerSize_ok (cmf flg : Byte) (dict rest : List Byte) (h1 : cmf.toNat % 16 = 8) (h2 : cmf.toNat / 16 ≤ 7)
    (h3 : dict.length = if flg.toNat / 32 % 2 = 1 then 4 else 0) : headerSize (cmf :: flg :: (dict ++ rest)) = .ok (2 + dict.length) := by
  unfold headerSize
  rw [R.require_true (by simp), R.ok_bind]
  rw [show R.get (cmf :: flg :: (dict ++ rest)) 0 = .ok cmf from rfl, show R.get (cmf :: flg :: (dict ++ rest)) 1 = .ok flg from rfl,
    R.ok_bind]
  simp only [R.ok_bind]
  rw [R.require_true (c := BitVec.toNat cmf &&& 15 = 8) (by rw [show (0x0f : Nat) = 2 ^ 4 - 1 from rfl, Nat.and_two_pow_sub_one_eq_mod]; omega), R.ok_bind]
  rw [R.require_true (c := 1 <<< (BitVec.toNat cmf >>> 4 + 8) ≤ 32768) (by
    rw [Nat.shiftRight_eq_div_pow, Nat.shiftLeft_eq, Nat.one_mul]
    exact Nat.pow_le_pow_right (by omega) (show cmf.toNat / 2 ^ 4 + 8 ≤ 15 by omega)), R.ok_bind]
  have hb := and_two_pow_ne_zero flg.toNat 5
  by_cases hf : flg.toNat / 32 % 2 = 1
  · rw [if_pos hf] at h3
    rw [if_pos (hb.2 hf), R.require_true (by simp; omega), R.ok_bind, h3]
    rfl
  · rw [if_neg hf] at h3
    rw [if_neg (fun hc => hf (hb.1 hc)), h3]
    rfl

theorem headerSize_sat (data : List Byte) : R.Sat (headerSize data) fun r => r ≤ data.length := by
  unfold headerSize
  refine R.Sat.bind R.sat_require fun _ h => ?_
  refine R.Sat.bind (R.sat_get (by omega)) fun _ _ => ?_
  refine R.Sat.bind R.sat_require fun _ _ => ?_
  refine R.Sat.bind R.sat_require fun _ _ => ?_
  refine R.Sat.bind (R.sat_get (by omega)) fun _ _ => ?_
  refine R.sat_ite (fun _ => ?_) fun _ => R.sat_pure (by omega)
  refine R.Sat.bind R.sat_require fun _ _ => ?_
  exact R.sat_pure (by omega)

theorem unread_ok (k : Nat) (s : Deflate.Bs) (h : s.n ≤ 7) : unread k s = .ok s := by
  unfold unread
  rw [if_neg (by omega)]

theorem adler_ok (buf : List Byte) : ∃ c, (Adler32.Ctx.new 1#32).update buf = .ok c ∧
    c.finalize.1.toNat = checksum buf := by
  obtain ⟨c, h1, h2, h3⟩ := Adler32.updates_spec (Adler32.Ctx.new 1#32) [buf]
  simp only [List.foldlM_cons, List.foldlM_nil, List.flatten_cons, List.flatten_nil, List.append_nil] at h1 h3
  refine ⟨c, ?_, ?_⟩
  · cases hu : (Adler32.Ctx.new 1#32).update buf with
    | ok c' => rw [hu] at h1; exact h1
    | err => rw [hu] at h1; cases h1
    | panic => rw [hu] at h1; cases h1
  · exact h3

theorem beNat_four (a b c d : Byte) : beNat [a, b, c, d] = be32 a b c d := by
  simp only [beNat, List.reverse_cons, List.reverse_nil, List.nil_append, List.cons_append, leNat, be32]
  omega

theorem checkTrailer_sat (data : List Byte) (off : Nat) (h : off ≤ data.length) (buf : List Byte) :
    R.Sat (checkTrailer data off buf) fun _ => True := by
  unfold checkTrailer
  refine R.Sat.bind (R.sat_subU h) fun left hl => ?_
  refine R.sat_ite (fun h4 => ?_) fun _ => R.sat_pure trivial
  obtain ⟨c, hc, _⟩ := adler_ok buf
  unfold u32be
  simp only [bind_assoc]
  refine R.Sat.bind (R.sat_slice (by omega) (by omega)) fun _ _ => ?_
  rw [R.pure_eq, R.ok_bind, hc, R.ok_bind]
  exact R.Sat.mono R.sat_require fun _ _ => trivial

theorem checkTrailer_eq (front : List Byte) (a b c d : Byte) (extra buf : List Byte) :
    checkTrailer (front ++ ([a, b, c, d] ++ extra)) front.length buf =
      if extra = [] then .ok () else if be32 a b c d = checksum buf then .ok () else .err := by
  unfold checkTrailer
  rw [R.subU_ok (by simp), R.ok_bind]
  by_cases he : extra = []
  · rw [if_pos he, if_neg (by subst he; simp), R.pure_eq]
  · have hlen : 0 < extra.length := List.length_pos_iff.2 he
    obtain ⟨ct, hc, hs⟩ := adler_ok buf
    rw [if_neg he, if_pos (by simp; omega), hc, ]
    have hslice : u32be (front ++ ([a, b, c, d] ++ extra)) front.length = .ok (be32 a b c d) := by
      unfold u32be
      rw [R.slice_ok (by omega) (by simp), R.ok_bind, R.pure_eq, ← beNat_four]
      simp
    rw [hslice, R.ok_bind, R.ok_bind, hs]
    unfold R.require
    rfl

theorem decompress_stream {data : List Byte} {bs : List Block} {sum : Nat} {extra : List Byte}
    (hs : Stream data bs sum extra) (hne : bs ≠ []) (hw : Wf 0 bs) (hok : Ok bs) (hdist : ∀ b ∈ bs, Deflate.HasDist b)
    (buf : List Byte) (hbuf : (denote bs).length ≤ buf.length) :
    decompress data buf =
      if extra = [] ∨ sum = checksum (denote bs ++ buf.drop (denote bs).length) then
        .ok (denote bs ++ buf.drop (denote bs).length, (denote bs).length)
      else .err := by
  obtain ⟨cmf, flg, dict, body, a, b, c, d, rfl, h1, h2, _, h3, ⟨fill, hf, hbits⟩, rfl⟩ := hs
  have hbb : byteBits (body ++ ([a, b, c, d] ++ extra)) = encode bs ++ (fill ++ byteBits ([a, b, c, d] ++ extra)) := by
    have := congrArg (· ++ byteBits ([a, b, c, d] ++ extra)) hbits
    simp only [List.append_assoc] at this
    rw [← this]; simp [byteBits]
  obtain ⟨s, e, hi, hr⟩ := Deflate.decompressBitstream_ok bs hne hw hok hdist (cmf :: flg :: dict) _ _ hbb buf hbuf
  have hlen := congrArg List.length hr
  rw [Deflate.rem_length, List.length_append, Deflate.byteBits_length] at hlen
  have hoff : s.off = ((cmf :: flg :: dict) ++ body).length := by
    have h7 := hi.small
    have ho := hi.off
    unfold Deflate.L at hlen
    simp only [List.length_append, List.length_cons, List.length_nil] at hlen ho ⊢
    omega
  have hdata : cmf :: flg :: (dict ++ body ++ [a, b, c, d] ++ extra) = ((cmf :: flg :: dict) ++ body) ++ ([a, b, c, d] ++ extra) := by simp
  have hdata' : (cmf :: flg :: dict) ++ (body ++ ([a, b, c, d] ++ extra)) = ((cmf :: flg :: dict) ++ body) ++ ([a, b, c, d] ++ extra) := by simp
  unfold decompress
  rw [show dict ++ body ++ [a, b, c, d] ++ extra = dict ++ (body ++ [a, b, c, d] ++ extra) by simp, headerSize_ok cmf flg dict _ h1 h2 h3, R.ok_bind,
    show cmf :: flg :: (dict ++ (body ++ [a, b, c, d] ++ extra)) = (cmf :: flg :: dict ++ body) ++ ([a, b, c, d] ++ extra) by simp]
  rw [hdata'] at e
  rw [show 2 + dict.length = (cmf :: flg :: dict).length by simp; omega, e, R.ok_bind]
  simp only
  rw [unread_ok 4 s hi.small, R.ok_bind, hoff, checkTrailer_eq]
  by_cases he : extra = []
  · rw [if_pos he, if_pos (Or.inl he)]; rfl
  · rw [if_neg he]
    by_cases hsum : be32 a b c d = checksum (denote bs ++ buf.drop (denote bs).length)
    · rw [if_pos hsum, if_pos (Or.inr hsum)]; rfl
    · rw [if_neg hsum, if_neg (by rintro (h | h); exacts [he h, hsum h])]; rfl

end Keramics.Zlib

namespace Keramics.Props
open Keramics.Spec.Zlib Keramics.Spec.Deflate

/-- C28, what holds: for every zlib stream of well-formed DEFLATE blocks that is followed by at least
one more byte, decompression into a buffer of the exact size is refused if the checksum differs from
that of the decompressed bytes. Missing: streams that end with their checksum
(`C28_violated_last_four_bytes`) and larger buffers (`C28_violated_larger_buffer`). -/
theorem C28_wrong_checksum_partial {data : List Byte} {bs : List Block} {sum : Nat} {extra : List Byte}
    (hs : Stream data bs sum extra) (hne : bs ≠ []) (hw : Wf 0 bs) (hok : Ok bs) (hdist : ∀ b ∈ bs, Deflate.HasDist b)
    (buf : List Byte) (hbuf : buf.length = (denote bs).length) (hextra : extra ≠ []) (hsum : sum ≠ checksum (denote bs)) :
    Zlib.decompress data buf = .err := by
  rw [Zlib.decompress_stream hs hne hw hok hdist buf (by omega), if_neg]
  rintro (h | h)
  · exact hextra h
  · rw [List.drop_of_length_le (by omega), List.append_nil] at h
    exact hsum h

/-- C28: a stream with the right checksum is decompressed, whatever follows it, when the buffer has the
exact size; if nothing follows it, larger buffers do as well. -/
theorem C28_right_checksum {data : List Byte} {bs : List Block} {extra : List Byte}
    (hs : Stream data bs (checksum (denote bs)) extra) (hne : bs ≠ []) (hw : Wf 0 bs) (hok : Ok bs)
    (hdist : ∀ b ∈ bs, Deflate.HasDist b) (buf : List Byte) (hle : (denote bs).length ≤ buf.length)
    (hbuf : buf.length = (denote bs).length ∨ extra = []) :
    Zlib.decompress data buf = .ok (denote bs ++ buf.drop (denote bs).length, (denote bs).length) := by
  rw [Zlib.decompress_stream hs hne hw hok hdist buf hle, if_pos]
  rcases hbuf with h | h
  · right; rw [List.drop_of_length_le (by omega), List.append_nil]
  · exact Or.inl h

/-- C28, arbitrary input: no panic, the buffer keeps its length, and the bytes after the reported size
are as they were. -/
theorem C28_bounds (data buf : List Byte) :
    Zlib.decompress data buf ≠ .panic ∧
    ∀ out size, Zlib.decompress data buf = .ok (out, size) →
      out.length = buf.length ∧ size ≤ buf.length ∧ out.drop size = buf.drop size := by
  have h : R.Sat (Zlib.decompress data buf) fun r => r.1.length = buf.length ∧ r.2 ≤ buf.length ∧
      r.1.drop r.2 = buf.drop r.2 := by
    unfold Zlib.decompress
    refine R.Sat.bind (Zlib.headerSize_sat data) fun start hst => ?_
    refine R.Sat.bind (Deflate.decompressBitstream_sat data start hst buf) fun r hr => ?_
    obtain ⟨s, b, o⟩ := r
    obtain ⟨hi, hr⟩ := hr
    simp only at hi hr ⊢
    rw [Zlib.unread_ok 4 s hi.small, R.ok_bind]
    refine R.Sat.bind (Zlib.checkTrailer_sat data s.off hi.off b) fun _ _ => ?_
    exact R.sat_pure hr
  exact ⟨h.ne_panic, fun out size e => h.of_ok e⟩

/-- The DEFLATE stream of the examples: one stored block with the byte 1. -/
def storedOne : List Block := [.stored (List.replicate 5 false) [1#8]]

/-- A stream with the identifier of a preset dictionary. -/
example : let data : List Byte := [0x78, 0x20, 9, 9, 9, 9, 1, 1, 0, 0xfe, 0xff, 1, 0, 2, 0, 2, 7]
    Stream data storedOne (checksum (denote storedOne)) [7] ∧ Zlib.decompress data [0#8] = .ok ([1#8], 1) := by
  exact ⟨⟨0x78#8, 0x20#8, [9, 9, 9, 9], [1, 1, 0, 0xfe, 0xff, 1], 0#8, 2#8, 0#8, 2#8, by decide, by decide, by decide, by decide, by decide,
    ⟨[], by decide, by decide +kernel⟩, by decide +kernel⟩, by decide +kernel⟩

/-- Every zlib stream ends with its checksum. When nothing follows, the checksum is not looked at: here
it is 0 where 0x00020002 belongs, and the data is accepted. -/
theorem C28_violated_last_four_bytes :
    let data : List Byte := [0x78, 0x9c, 1, 1, 0, 0xfe, 0xff, 1, 0, 0, 0, 0]
    Stream data storedOne 0 [] ∧ Wf 0 storedOne ∧ Ok storedOne ∧ checksum (denote storedOne) ≠ 0 ∧
      Zlib.decompress data [0#8] = .ok ([1#8], 1) := by
  refine ⟨⟨0x78#8, 0x9c#8, [], [1, 1, 0, 0xfe, 0xff, 1], 0#8, 0#8, 0#8, 0#8, by decide, by decide, by decide, by decide, by decide,
    ⟨[], by decide, by decide +kernel⟩, by decide⟩, ⟨by simp [Block.wf], trivial⟩, ?_, by decide +kernel, by decide +kernel⟩
  simp [Ok, storedOne, Block.ops, Spec.Lz.Ok, Spec.Lz.Op.ok]

/-- The checksum is taken over the whole buffer, not over the decompressed bytes: a stream with the
right checksum is refused when another byte follows it and the buffer has room left. -/
theorem C28_violated_larger_buffer :
    let data : List Byte := [0x78, 0x9c, 1, 1, 0, 0xfe, 0xff, 1, 0, 2, 0, 2, 7]
    Stream data storedOne (checksum (denote storedOne)) [7] ∧ Zlib.decompress data [0#8, 0#8] = .err := by
  exact ⟨⟨0x78#8, 0x9c#8, [], [1, 1, 0, 0xfe, 0xff, 1], 0#8, 2#8, 0#8, 2#8, by decide, by decide, by decide, by decide, by decide,
    ⟨[], by decide, by decide +kernel⟩, by decide +kernel⟩, by decide +kernel⟩

/-- The hypotheses of the two theorems, and what they say, on a stored block followed by a byte. -/
example :
    let data : List Byte := [0x78, 0x9c, 1, 1, 0, 0xfe, 0xff, 1, 0, 2, 0, 3, 7]
    Stream data storedOne 0x20003 [7] ∧ Wf 0 storedOne ∧ (∀ b ∈ storedOne, Deflate.HasDist b) ∧
      checksum (denote storedOne) = 0x20002 ∧ Zlib.decompress data [0#8] = .err := by
  refine ⟨⟨0x78#8, 0x9c#8, [], [1, 1, 0, 0xfe, 0xff, 1], 0#8, 2#8, 0#8, 3#8, by decide, by decide, by decide, by decide, by decide,
    ⟨[], by decide, by decide +kernel⟩, by decide +kernel⟩, ⟨by simp [Block.wf], trivial⟩, ?_, by decide +kernel, by decide +kernel⟩
  intro b hb
  simp only [storedOne, List.mem_cons, List.not_mem_nil, or_false] at hb
  subst hb
  trivial

end Keramics.Props
