import Verif.Lemmas.LzfseLoop

/-! # C66: LZFSE decompression -/

namespace Keramics.Lzfse
open Keramics.Spec.Lzfse

/-! ## Bounds -/

/-- What holds for the buffer and the offset in it during decompression. -/
def Within (orig buf : List Byte) (out : Nat) : Prop :=
  buf.length = orig.length ∧ out ≤ orig.length ∧ buf.drop out = orig.drop out

theorem copyBlock_within {literals orig buf buf' : List Byte} {off active index l m off' : Nat} (h : Within orig buf off)
    (e : copyBlock literals buf off active index l m = .ok (buf', off')) : Within orig buf' off' := by
  obtain ⟨h1, h2, h3⟩ := h
  unfold copyBlock at e
  obtain ⟨_, a1, e⟩ := R.bind_eq_ok.1 e
  have a1 := R.require_eq_ok.1 a1
  have hlen : (takeLiterals literals index l).length = l := by simp [takeLiterals]
  obtain ⟨b, hb, e⟩ := R.bind_eq_ok.1 e
  rw [R.splice_ok (by omega) (by omega) (by omega)] at hb
  have hb := R.ok.inj hb
  have hbl : b.length = buf.length := by
    rw [← hb]; simp only [List.length_append, List.length_take, List.length_drop, hlen]; omega
  have hbd : b.drop (off + l) = buf.drop (off + l) := by
    rw [← hb, List.drop_left' (by simp only [List.length_append, List.length_take, hlen]; omega)]
  obtain ⟨_, a2, e⟩ := R.bind_eq_ok.1 e
  have a2 := R.require_eq_ok.1 a2
  obtain ⟨_, a3, e⟩ := R.bind_eq_ok.1 e
  have a3 := R.require_eq_ok.1 a3
  obtain ⟨b2, hb2, e⟩ := R.bind_eq_ok.1 e
  have hm : m ≤ b.length - (off + l) := by
    have : toSigned 32 ((b.length - (off + l)) % 2 ^ 32) ≤ ((b.length - (off + l) : Nat) : Int) := by
      unfold toSigned
      split_ifs <;> omega
    omega
  obtain ⟨c1, c2⟩ := (Lz.copyMatch_sat m b (off + l) (off + l - active) (by omega) (by omega)).of_ok hb2
  have e := R.ok.inj e
  rw [Prod.mk.injEq] at e
  obtain ⟨rfl, rfl⟩ := e
  refine ⟨by omega, by omega, ?_⟩
  rw [c2]
  apply Lz.drop_later (i := off + l) _ (by omega)
  rw [hbd]
  exact Lz.drop_later h3 (by omega)

theorem lmdLoop_within {data literals orig : List Byte} {t : Tables} (count : Nat) {v : Lmd} {s : Bs} {buf buf' : List Byte} {off : Nat}
    (h : Within orig buf v.off) (e : lmdLoop data literals t count v s buf = .ok (buf', off)) : Within orig buf' off := by
  induction count generalizing v s buf with
  | zero =>
    have e := R.ok.inj e
    rw [Prod.mk.injEq] at e
    rw [← e.1, ← e.2]; exact h
  | succ count ih =>
    unfold lmdLoop at e
    obtain ⟨⟨_, _, _⟩, _, e⟩ := R.bind_eq_ok.1 e
    obtain ⟨⟨_, _, _⟩, _, e⟩ := R.bind_eq_ok.1 e
    obtain ⟨⟨_, _, _⟩, _, e⟩ := R.bind_eq_ok.1 e
    obtain ⟨⟨_, _⟩, hc, e⟩ := R.bind_eq_ok.1 e
    exact ih (copyBlock_within h hc) e

theorem coded_within {data orig : List Byte} {st st' : St} {hd : Header × List Nat × Nat} (h : Within orig st.buf st.out)
    (e : coded data st hd = .ok st') : Within orig st'.buf st'.out := by
  unfold coded at e
  obtain ⟨t, _, e⟩ := R.bind_eq_ok.1 e
  obtain ⟨⟨_, b, o⟩, hb, e⟩ := R.bind_eq_ok.1 e
  have e := R.ok.inj e
  rw [← e]
  unfold block at hb
  obtain ⟨_, _, hb⟩ := R.bind_eq_ok.1 hb
  obtain ⟨_, _, hb⟩ := R.bind_eq_ok.1 hb
  obtain ⟨_, _, hb⟩ := R.bind_eq_ok.1 hb
  obtain ⟨_, _, hb⟩ := R.bind_eq_ok.1 hb
  obtain ⟨_, _, hb⟩ := R.bind_eq_ok.1 hb
  obtain ⟨⟨b', o'⟩, hl, hb⟩ := R.bind_eq_ok.1 hb
  have hb := R.ok.inj hb
  simp only [Prod.mk.injEq] at hb
  obtain ⟨_, rfl, rfl⟩ := hb
  unfold lmdValues at hl
  obtain ⟨_, _, hl⟩ := R.bind_eq_ok.1 hl
  exact lmdLoop_within (t := t) _ (v := ⟨st.out, _, _, _, _, _⟩) h hl

theorem splice_within {orig buf buf' new : List Byte} {out n : Nat} (h : Within orig buf out) (hn : n ≤ orig.length - out)
    (hnew : new.length = n) (e : R.splice buf out (out + n) new = .ok buf') : Within orig buf' (out + n) := by
  obtain ⟨h1, h2, h3⟩ := h
  rw [R.splice_ok (by omega) (by omega) (by omega)] at e
  have e := R.ok.inj e
  refine ⟨?_, by omega, ?_⟩
  · rw [← e]; simp only [List.length_append, List.length_take, List.length_drop, hnew]; omega
  · rw [← e, List.drop_left' (by simp only [List.length_append, List.length_take, hnew]; omega)]
    exact Lz.drop_later h3 (by omega)

theorem dispatch_within {data orig : List Byte} {st st' : St} {marker size : Nat} (h : Within orig st.buf st.out)
    (hs : size ≤ orig.length - st.out) (e : dispatch data marker size st = .ok st') : Within orig st'.buf st'.out := by
  unfold dispatch at e
  split_ifs at e
  · obtain ⟨_, hl, e⟩ := R.bind_eq_ok.1 e
    obtain ⟨_, hr, e⟩ := R.bind_eq_ok.1 e
    obtain ⟨bytes, hb, e⟩ := R.bind_eq_ok.1 e
    obtain ⟨buf, hbuf, e⟩ := R.bind_eq_ok.1 e
    have e := R.ok.inj e
    rw [← e]
    refine splice_within h hs ?_ hbuf
    unfold R.slice at hb
    split_ifs at hb with hc
    have hb := R.ok.inj hb
    rw [← hb]; simp; omega
  · obtain ⟨_, _, e⟩ := R.bind_eq_ok.1 e
    exact coded_within h e
  · obtain ⟨_, _, e⟩ := R.bind_eq_ok.1 e
    exact coded_within h e
  · obtain ⟨_, _, e⟩ := R.bind_eq_ok.1 e
    obtain ⟨_, _, e⟩ := R.bind_eq_ok.1 e
    obtain ⟨n, _, e⟩ := R.bind_eq_ok.1 e
    obtain ⟨_, _, e⟩ := R.bind_eq_ok.1 e
    obtain ⟨_, _, e⟩ := R.bind_eq_ok.1 e
    obtain ⟨bytes, _, e⟩ := R.bind_eq_ok.1 e
    obtain ⟨window, hw, e⟩ := R.bind_eq_ok.1 e
    obtain ⟨⟨window', k⟩, hz, e⟩ := R.bind_eq_ok.1 e
    obtain ⟨buf, hbuf, e⟩ := R.bind_eq_ok.1 e
    have e := R.ok.inj e
    rw [← e]
    refine splice_within h hs ?_ hbuf
    have hl := ((Props.C25_lzvn_bounds bytes window).2 _ _ hz).1
    rw [hl]
    unfold R.slice at hw
    split_ifs at hw with hc
    have hw := R.ok.inj hw
    rw [← hw]; simp; omega

theorem turn_within {data orig : List Byte} {st st' : St} (h : Within orig st.buf st.out) (e : turn data st = .ok (some st')) :
    Within orig st'.buf st'.out := by
  unfold turn at e
  obtain ⟨_, _, e⟩ := R.bind_eq_ok.1 e
  obtain ⟨_, _, e⟩ := R.bind_eq_ok.1 e
  obtain ⟨marker, _, e⟩ := R.bind_eq_ok.1 e
  split_ifs at e
  · cases e
  · obtain ⟨_, _, e⟩ := R.bind_eq_ok.1 e
    obtain ⟨_, _, e⟩ := R.bind_eq_ok.1 e
    obtain ⟨_, _, e⟩ := R.bind_eq_ok.1 e
    obtain ⟨size, _, e⟩ := R.bind_eq_ok.1 e
    obtain ⟨room, hroom, e⟩ := R.bind_eq_ok.1 e
    obtain ⟨_, hsz, e⟩ := R.bind_eq_ok.1 e
    obtain ⟨s, hd, e⟩ := R.bind_eq_ok.1 e
    have e := Option.some.inj (R.ok.inj e)
    subst e
    have hsz := R.require_eq_ok.1 hsz
    unfold R.subU at hroom
    split_ifs at hroom with hc
    have hroom := R.ok.inj hroom
    have := h.1
    exact dispatch_within (st := { st with off := st.off + 8 }) h (by simp only; omega) hd

theorem loop_within {data orig : List Byte} (fuel : Nat) {st : St} (h : Within orig st.buf st.out) {buf : List Byte} {out : Nat}
    (e : loop data fuel st = .ok (buf, out)) : Within orig buf out := by
  induction fuel generalizing st with
  | zero => cases e
  | succ fuel ih =>
    unfold loop at e
    have done : R.ok (st.buf, st.out) = .ok (buf, out) → Within orig buf out := by
      intro e
      have e := R.ok.inj e
      rw [Prod.mk.injEq] at e
      rw [← e.1, ← e.2]; exact h
    split_ifs at e
    · obtain ⟨r, hr, e⟩ := R.bind_eq_ok.1 e
      cases r with
      | none => exact done e
      | some st' => exact ih (turn_within h hr) e
    · exact done e

/-! ## Refused blocks -/

/-- A coded block with less than 8 bytes after its header is refused. -/
theorem blockV2_short {c : Coded} (h : c.Wf) {data rest : List Byte} {off : Nat} (ho : off ≤ data.length)
    (hd : data.drop off = c.encode ++ rest) (h8 : c.literalData.length + c.stepData.length + rest.length < 8) (old : List Nat) :
    blockV2 data off old = .err := by
  have henc : c.encode.length = 24 + c.table.length + c.literalData.length + c.stepData.length := by
    simp [Coded.encode, le_length]; omega
  have hlen := drop_length hd ho
  unfold blockV2
  rw [R.require_true (by omega), R.ok_bind, R.slice_ok (by omega) (by omega), R.ok_bind, Nat.add_sub_cancel_left, hd,
    List.take_append_of_le_length (by omega), readV2_ok h, R.ok_bind]
  simp only
  rw [R.subU_ok ho, R.ok_bind, R.require_false (by omega), R.err_bind]

/-- A step into a buffer with 2 GiB or more left is refused. -/
theorem lmdLoop_large {data : List Byte} {c : Coded} (h : c.Wf) {t : Tables} (ht : TablesOk c t) (hne : c.steps ≠ [])
    {buf : List Byte} (h1 : 2 ^ 31 + 315 ≤ buf.length) (h2 : buf.length < 2 ^ 32)
    {b : Bs} {r : List Bool} (hi : Inv data b) (hr : rem data b = (codeSteps c c.steps).2 ++ r) :
    lmdLoop data c.literals t c.steps.length
        ⟨0, 0, 0, (codeSteps c c.steps).1.l, (codeSteps c c.steps).1.m, (codeSteps c c.steps).1.d⟩ b buf = .err := by
  obtain ⟨x, ts, hx⟩ := List.exists_cons_of_ne_nil hne
  have hsteps := h.steps
  have hused := h.used
  have hcount := h.count
  rw [hx] at hsteps hused hr ⊢
  have hts' : ∀ t ∈ ts, t.Ok c := fun y hy => hsteps y (List.mem_cons_of_mem _ hy)
  obtain ⟨hl, hm, hd⟩ := hsteps x List.mem_cons_self
  obtain ⟨b1, b2, b3⟩ := codeSteps_below h ts hts'
  have hl315 := l_value_le h.l.1 hl
  simp only [codeSteps] at hr ⊢
  simp only [used] at hused
  generalize hc : codeSteps c ts = z at *
  simp only [List.append_assoc] at hr
  obtain ⟨s1, e1, i1, r1⟩ := lmdValue_ok (n := 6) (by omega) h.l.2.1 (fun x hx => lTable x (by rw [h.l.1] at hx; exact hx)) ht.l hl b1 hi hr
  obtain ⟨s2, e2, i2, r2⟩ := lmdValue_ok (n := 6) (by omega) h.m.2.1 (fun x hx => mTable x (by rw [h.m.1] at hx; exact hx)) ht.m hm b2 i1 r1
  obtain ⟨s3, e3, i3, r3⟩ := lmdValue_ok (n := 8) (by omega) h.d.2.1 (fun x hx => dTable x (by rw [h.d.1] at hx; exact hx)) ht.d hd b3 i2 r2
  simp only [show 2 ^ 6 = 64 from rfl, show 2 ^ 8 = 256 from rfl] at e1 e2 e3
  rw [List.length_cons]
  unfold lmdLoop
  simp only
  rw [e1, R.ok_bind]; simp only
  rw [e2, R.ok_bind]; simp only
  rw [e3, R.ok_bind]; simp only
  unfold copyBlock maxLiterals
  have hlen : (takeLiterals c.literals 0 (x.l.value lExtra)).length = x.l.value lExtra := by simp [takeLiterals]
  rw [R.require_true (by omega), R.ok_bind, R.splice_ok (by omega) (by omega) (by omega), R.ok_bind]
  simp only
  have hrem : toSigned 32 (((buf.take 0 ++ takeLiterals c.literals 0 (x.l.value lExtra) ++ buf.drop (0 + x.l.value lExtra)).length
      - (0 + x.l.value lExtra)) % 2 ^ 32) < 0 := by
    simp only [List.length_append, List.length_take, List.length_drop, hlen]
    unfold toSigned
    rw [Nat.mod_eq_of_lt (by omega), if_neg (by omega)]
    omega
  rw [R.require_false (by omega)]
  rfl

end Keramics.Lzfse

/-! ## Examples -/

namespace Keramics.Spec.Lzfse

instance (N n : Nat) (f : List Nat) : Decidable (CodeOk N n f) := by unfold CodeOk; infer_instance
instance (f : List Nat) (x : Nat) : Decidable (Has f x) := by unfold Has; infer_instance
instance (e : Nat → Nat) (f : List Nat) (v : Value) : Decidable (v.Ok e f) := by unfold Value.Ok; infer_instance
instance (c : Coded) (t : Step) : Decidable (t.Ok c) := by unfold Step.Ok; infer_instance
instance (N : Nat) (s : Four) : Decidable (s.Below N) := by unfold Four.Below; infer_instance
instance (u : Nat) (d : List Byte) (b : List Bool) : Decidable (Holds u d b) := by unfold Holds; infer_instance
instance (f : List Nat) (t : List Byte) : Decidable (TableOk f t) := by unfold TableOk; infer_instance

instance (c : Coded) : Decidable c.Wf :=
  decidable_of_iff (CodeOk 64 20 c.lFreqs ∧ CodeOk 64 20 c.mFreqs ∧ CodeOk 256 64 c.dFreqs ∧ CodeOk 1024 256 c.literalFreqs ∧
      c.literals.length % 4 = 0 ∧ c.literals.length ≤ 40000 ∧ (∀ x ∈ c.literals, Has c.literalFreqs x.toNat) ∧
      (∀ t ∈ c.steps, t.Ok c) ∧ c.steps.length ≤ 10000 ∧ used c.steps ≤ c.literals.length ∧ c.literalEnd.Below 1024 ∧
      (c.stepEnd.l < 64 ∧ c.stepEnd.m < 64 ∧ c.stepEnd.d < 256) ∧ (c.literalUnused ≤ 7 ∧ c.stepUnused ≤ 7) ∧
      Holds c.literalUnused c.literalData (codeLiterals c.literalFreqs c.literalEnd c.literals).2 ∧
      Holds c.stepUnused c.stepData (codeSteps c c.steps).2 ∧
      (c.literalData.length < 2 ^ 20 ∧ c.stepData.length < 2 ^ 20) ∧
      TableOk (c.lFreqs ++ c.mFreqs ++ c.dFreqs ++ c.literalFreqs) c.table)
    ⟨fun ⟨a, b, c, d, e, f, g, h, i, j, k, l, m, n, o, p, q⟩ => ⟨a, b, c, d, e, f, g, h, i, j, k, l, m, n, o, p, q⟩,
      fun ⟨a, b, c, d, e, f, g, h, i, j, k, l, m, n, o, p, q⟩ => ⟨a, b, c, d, e, f, g, h, i, j, k, l, m, n, o, p, q⟩⟩

instance (l : List Byte) (o : Lz.Op) : Decidable (o.ok l) := by cases o <;> unfold Lz.Op.ok <;> infer_instance

instance decLz : (l : List Byte) → (os : List Lz.Op) → Decidable (Lz.Ok l os)
  | _, [] => isTrue trivial
  | l, o :: os => @instDecidableAnd _ _ _ (decLz (o.run l) os)

/-- Frequencies of `n` symbols that are 0 but for those given. -/
def freqs (n : Nat) (given : List (Nat × Nat)) : List Nat :=
  (List.range n).map fun x => ((given.find? fun p => p.1 = x).map Prod.snd).getD 0

/-- A block of three steps, one of which uses the distance of the step before. -/
def three : Coded where
  lFreqs := freqs 20 [(0, 32), (4, 32)]
  mFreqs := freqs 20 [(3, 45), (16, 19)]
  dFreqs := freqs 64 [(0, 60), (2, 190), (5, 6)]
  literalFreqs := freqs 256 [(97, 512), (98, 300), (99, 212)]
  literals := [97#8, 98#8, 99#8, 97#8, 97#8, 97#8, 98#8, 99#8]
  steps := [⟨⟨4, 0⟩, ⟨3, 0⟩, ⟨2, 0⟩⟩, ⟨⟨0, 0⟩, ⟨16, 5⟩, ⟨0, 0⟩⟩, ⟨⟨4, 0⟩, ⟨3, 0⟩, ⟨5, 1⟩⟩]
  literalEnd := ⟨0, 1, 500, 1023⟩
  stepEnd := ⟨0, 63, 17⟩
  literalUnused := 4
  literalData := [167#8, 1#8]
  stepUnused := 5
  stepData := [99#8, 172#8, 0#8]
  table := [143#8, 0#8, 240#8, 8#8, 0#8, 0#8, 0#8, 0#8, 192#8, 87#8, 0#8, 0#8, 0#8, 112#8, 11#8, 60#8, 9#8, 188#8, 41#8, 48#8, 1#8] ++
    List.replicate 37 0#8 ++ [128#8, 71#8, 239#8, 41#8, 122#8, 94#8] ++ List.replicate 40 0#8

/-- Four times the same byte and three copies of it, in a block without data: each code has one
symbol. -/
def same : Coded where
  lFreqs := freqs 20 [(4, 64)]
  mFreqs := freqs 20 [(3, 64)]
  dFreqs := freqs 64 [(1, 256)]
  literalFreqs := freqs 256 [(97, 1024)]
  literals := [97#8, 97#8, 97#8, 97#8]
  steps := [⟨⟨4, 0⟩, ⟨3, 0⟩, ⟨1, 0⟩⟩]
  literalEnd := ⟨0, 0, 0, 0⟩
  stepEnd := ⟨0, 0, 0⟩
  literalUnused := 0
  literalData := []
  stepUnused := 0
  stepData := []
  table := [0#8, 143#8, 2#8, 0#8, 0#8, 0#8, 0#8, 60#8, 10#8, 0#8, 0#8, 0#8, 0#8, 60#8, 58#8] ++
    List.replicate 39 0#8 ++ [192#8, 163#8, 15#8] ++ List.replicate 39 0#8

/-- The same with a step that asks for the distance before, of which there is none. -/
def noDistance : Coded :=
  { same with
    dFreqs := freqs 64 [(0, 256)]
    steps := [⟨⟨4, 0⟩, ⟨3, 0⟩, ⟨0, 0⟩⟩]
    table := [0#8, 143#8, 2#8, 0#8, 0#8, 0#8, 0#8, 60#8, 10#8, 0#8, 0#8, 0#8, 0#8, 143#8, 14#8] ++
      List.replicate 39 0#8 ++ [192#8, 163#8, 15#8] ++ List.replicate 39 0#8 }

theorem three_wf : three.Wf := by decide +kernel
theorem same_wf : same.Wf := by decide +kernel
theorem noDistance_wf : noDistance.Wf := by decide +kernel

end Keramics.Spec.Lzfse

namespace Keramics.Props
open Keramics.Spec.Lzfse Keramics.Lzfse

/-- C66, decoding, in part: a stream of raw, LZVN and version 2 blocks that follow the format, with
distances that refer to bytes that exist, and the end of stream marker give the bytes the blocks stand for, at
the start of any buffer with room for them; the rest of the buffer stays as it was and the size is that
of the bytes. What follows the marker does not matter.

Missing: version 1 blocks (`C66_violated_v1`), coded blocks with less than 4 bytes of data
(`C66_violated_small`), buffers of 2 GiB and more (`C66_violated_large`), LZVN blocks that refer to bytes
of the blocks before. -/
theorem C66_lzfse_decode_partial (bs : List Block) (tail buf : List Byte) (hok : Ok [] bs) (hh : ∀ c, Block.coded c ∈ bs → 4 ≤ c.literalData.length + c.stepData.length)
    (hbuf : (run [] bs).length ≤ buf.length) (h31 : buf.length < 2 ^ 31) :
    Lzfse.decompress (encode [] bs ++ tail) buf
      = .ok (run [] bs ++ buf.drop (run [] bs).length, (run [] bs).length) := by
  have hl := Lzfse.stream_length [] bs
  unfold Lzfse.decompress
  refine Lzfse.loop_ok h31 bs _ ?_ [] (by simp) rfl hok ?_ rfl (by simp) hbuf
  · unfold Lzfse.maxTurns
    have h1 : bs.length < (encode [] bs ++ tail).length := by rw [List.length_append]; omega
    calc bs.length < ((encode [] bs ++ tail).length + 2) * 1 * 1 := by omega
      _ ≤ _ := Nat.mul_le_mul (Nat.mul_le_mul_left _ (by omega)) (by omega)
  · intro b hb
    cases b with
    | coded c => exact hh c hb
    | _ => trivial

/-- C66, bounds, in part: decompression of any bytes into any buffer that returns a result keeps the
length of the buffer, reports no more than that, and leaves the bytes after the reported size as they
were. Missing: that it always returns (`C66_violated_truncated`, `C66_violated_endless`). -/
theorem C66_lzfse_bounds_partial (data buf out : List Byte) (size : Nat) (h : Lzfse.decompress data buf = .ok (out, size)) :
    out.length = buf.length ∧ size ≤ buf.length ∧ out.drop size = buf.drop size :=
  Lzfse.loop_within _ ⟨rfl, Nat.zero_le _, rfl⟩ h

/-- C66 is violated: a coded block with less than 4 bytes of data at the end of the stream is refused,
although it follows the format. The size of the header counts the 8 bytes of the marker and the
block size, but is compared with the number of bytes after those. -/
theorem C66_violated_small (c : Coded) (buf : List Byte) (hw : c.Wf) (hok : Spec.Lz.Ok [] (ops c.literals 0 c.steps))
    (hs : c.literalData.length + c.stepData.length < 4) (hne : buf ≠ []) (h31 : buf.length < 2 ^ 31)
    (hbuf : (run [] [.coded c]).length ≤ buf.length) :
    Lzfse.decompress (encode [] [.coded c]) buf = .err := by
  have _ := hok
  have hpos : 0 < buf.length := List.length_pos_iff.2 hne
  have hd : (encode [] [.coded c]).drop 0 = [0x62#8, 0x76#8, 0x78#8, 0x32#8] ++ (le 4 (run [] [.coded c]).length ++
      (c.encode ++ [0x62#8, 0x76#8, 0x78#8, 0x24#8])) := by
    simp [encode, Block.encode, run]
  have hm := u32_drop hd rfl
  have hd1 := drop_next hd (n := 4) rfl
  have hs1 := u32_drop hd1 (le_length _ _)
  have hd2 := drop_next hd1 (n := 4) (le_length _ _)
  rw [leNat_le (by omega)] at hs1
  have hlen := drop_length hd (Nat.zero_le _)
  simp only [List.length_append, le_length, List.length_cons, List.length_nil] at hlen
  generalize encode [] [.coded c] = data at *
  unfold Lzfse.decompress Lzfse.maxTurns
  obtain ⟨k, hk⟩ : ∃ k, (data.length + 2) * (data.length + 2) * (buf.length + 2) = k + 1 :=
    ⟨_, (Nat.succ_pred_eq_of_pos (Nat.mul_pos (Nat.mul_pos (by omega) (by omega)) (by omega))).symm⟩
  rw [hk]
  unfold Lzfse.loop
  rw [if_pos ⟨by simp only; omega, by simp only; omega⟩]
  unfold Lzfse.turn
  simp only
  rw [R.subU_ok (by omega), R.ok_bind, R.require_true (by omega), R.ok_bind, hm, R.ok_bind, marker_of,
    if_neg (by decide), R.require_true (by decide), R.ok_bind, R.subU_ok (by omega), R.ok_bind, R.require_true (by omega), R.ok_bind, hs1,
    R.ok_bind, R.subU_ok (by omega), R.ok_bind, R.require_true (by omega), R.ok_bind]
  unfold Lzfse.dispatch
  rw [if_neg (by decide), if_neg (by decide), if_pos (by decide)]
  simp only
  rw [blockV2_short hw (by omega) hd2 (by simp only [List.length_cons, List.length_nil]; omega), R.err_bind, R.err_bind, R.err_bind]

/-- `C66_violated_small` speaks of a block that stands for seven bytes. -/
example : same.Wf ∧ Spec.Lz.Ok [] (ops same.literals 0 same.steps) ∧ same.literalData.length + same.stepData.length < 4 ∧
    run [] [.coded same] = List.replicate 7 97#8 := ⟨same_wf, by decide +kernel, by decide +kernel, by decide +kernel⟩

/-- Three blocks; what follows the stream does not matter. -/
example (tail : List Byte) :
    Lzfse.decompress (encode [] [.raw [1#8, 2#8], .lzvn [.small [3#8, 4#8] 1 3] [6#8], .coded three] ++ tail) (List.replicate 45 0#8) =
      .ok ([1#8, 2#8, 3#8, 4#8, 4#8, 4#8, 4#8, 97#8, 98#8, 99#8, 97#8] ++ (List.replicate 12 [99#8, 97#8]).flatten ++
        [97#8, 97#8, 98#8, 99#8, 97#8, 99#8, 97#8] ++ List.replicate 3 0#8, 42) := by
  have hok : Ok [] [.raw [1#8, 2#8], .lzvn [.small [3#8, 4#8] 1 3] [6#8], .coded three] := by
    refine ⟨trivial, ⟨?_, Or.inr rfl, by decide +kernel⟩, ⟨three_wf, by decide +kernel⟩, trivial⟩
    simp [Spec.Lzvn.Valid, Spec.Lzvn.ops, Spec.Lzvn.Token.wf, Spec.Lzvn.Token.ops, Spec.Lz.Ok, Spec.Lz.Op.ok, Spec.Lz.Op.run]
  rw [C66_lzfse_decode_partial _ tail _ hok (by intro c hc; simp at hc; rw [hc]; decide +kernel) (by decide +kernel) (by decide +kernel)]
  decide +kernel

/-- The block copies from the blocks before it. -/
example : Ok [1#8, 2#8, 3#8] [.coded three] := ⟨⟨three_wf, by decide +kernel⟩, trivial⟩

/-- C66 is violated: a coded block is refused if the buffer has 2 GiB or more (and less than 4 GiB)
left, since that size becomes a negative 32-bit number. -/
theorem C66_violated_large (c : Coded) (buf tail : List Byte) (hw : c.Wf) (hok : Spec.Lz.Ok [] (ops c.literals 0 c.steps))
    (hs : 4 ≤ c.literalData.length + c.stepData.length) (hne : c.steps ≠ [])
    (h31 : 2 ^ 31 + 315 ≤ buf.length) (h32 : buf.length < 2 ^ 32) (hbuf : (run [] [.coded c]).length ≤ buf.length) :
    Lzfse.decompress (encode [] [.coded c] ++ tail) buf = .err := by
  have _ := hok
  have hd : (encode [] [.coded c] ++ tail).drop 0 = [0x62#8, 0x76#8, 0x78#8, 0x32#8] ++ (le 4 (run [] [.coded c]).length ++
      (c.encode ++ ([0x62#8, 0x76#8, 0x78#8, 0x24#8] ++ tail))) := by
    simp [encode, Block.encode, run]
  have hm := u32_drop hd rfl
  have hd1 := drop_next hd (n := 4) rfl
  have hs1 := u32_drop hd1 (le_length _ _)
  have hd2 := drop_next hd1 (n := 4) (le_length _ _)
  rw [leNat_le (by omega)] at hs1
  have hlen := drop_length hd (Nat.zero_le _)
  simp only [List.length_append, le_length, List.length_cons, List.length_nil] at hlen
  have henc : c.encode.length = 24 + c.table.length + c.literalData.length + c.stepData.length := by
    simp [Coded.encode, le_length]; omega
  generalize hdata : encode [] [.coded c] ++ tail = data at *
  have hlen' : data.length = 12 + c.encode.length + tail.length := by rw [← hdata, List.length_append]; omega
  unfold Lzfse.decompress Lzfse.maxTurns
  obtain ⟨k, hk⟩ : ∃ k, (data.length + 2) * (data.length + 2) * (buf.length + 2) = k + 1 :=
    ⟨_, (Nat.succ_pred_eq_of_pos (Nat.mul_pos (Nat.mul_pos (by omega) (by omega)) (by omega))).symm⟩
  rw [hk]
  unfold Lzfse.loop
  rw [if_pos ⟨by simp only; omega, by simp only; omega⟩]
  unfold Lzfse.turn
  simp only
  rw [R.subU_ok (by omega), R.ok_bind, R.require_true (by omega), R.ok_bind, hm, R.ok_bind, marker_of,
    if_neg (by decide), R.require_true (by decide), R.ok_bind, R.subU_ok (by omega), R.ok_bind, R.require_true (by omega), R.ok_bind, hs1,
    R.ok_bind, R.subU_ok (by omega), R.ok_bind, R.require_true (by omega), R.ok_bind]
  unfold Lzfse.dispatch
  rw [if_neg (by decide), if_neg (by decide), if_pos (by decide)]
  simp only
  rw [blockV2_ok hw (by omega) hd2 (by simp only [List.length_append, List.length_cons, List.length_nil]; omega), R.ok_bind]
  have hd3 : data.drop (0 + 4 + 4 + 24 + c.table.length) = c.literalData ++ (c.stepData ++ ([0x62#8, 0x76#8, 0x78#8, 0x24#8] ++ tail)) := by
    rw [Nat.add_assoc _ 24, ← List.drop_drop, hd2, Coded.encode]
    simp only [List.append_assoc]
    rw [← List.append_assoc, ← List.append_assoc, ← List.append_assoc, List.drop_left' (by simp [le_length]; omega)]
  obtain ⟨t, et, ht⟩ := tables_ok hw
  obtain ⟨s, r, i, hr, eb⟩ := block_start hw ht (buf := buf) (out := 0) (by omega) (by omega) hd3
  unfold Lzfse.coded
  simp only
  rw [et, R.ok_bind, eb, lmdLoop_large hw ht hne h31 h32 i hr]
  rfl

/-- C66 is violated: a version 1 block that follows the format is not decoded; one makes the call panic, the
other is refused. The frequency table is read from offset 42 of the stream, not of the block, whose
header comes after a marker and a size. -/
theorem C66_violated_v1 :
    (three.Wf ∧ Spec.Lz.Ok [] (ops three.literals 0 three.steps) ∧
      Lzfse.decompress ([0x62#8, 0x76#8, 0x78#8, 0x31#8] ++ le 4 (run [] [.coded three]).length ++ three.encodeV1 ++
        [0x62#8, 0x76#8, 0x78#8, 0x24#8]) (List.replicate 35 0#8) = .panic) ∧
    (same.Wf ∧ Spec.Lz.Ok [] (ops same.literals 0 same.steps) ∧
      Lzfse.decompress ([0x62#8, 0x76#8, 0x78#8, 0x31#8] ++ le 4 (run [] [.coded same]).length ++ same.encodeV1 ++
        [0x62#8, 0x76#8, 0x78#8, 0x24#8]) (List.replicate 7 0#8) = .err) :=
  ⟨⟨three_wf, by decide +kernel, by decide +kernel⟩, ⟨same_wf, by decide +kernel, by decide +kernel⟩⟩

/-- C66 is violated: a block whose first step asks for the distance before, of which there is none, is
not refused; the match leaves what the buffer held before the call. -/
theorem C66_violated_distance :
    Lzfse.decompress (encode [] [.coded noDistance] ++ List.replicate 4 0#8) (List.replicate 7 0#8)
      = .ok (List.replicate 4 97#8 ++ List.replicate 3 0#8, 7) ∧
    Lzfse.decompress (encode [] [.coded noDistance] ++ List.replicate 4 0#8) (List.replicate 7 1#8)
      = .ok (List.replicate 4 97#8 ++ List.replicate 3 1#8, 7) :=
  ⟨by decide +kernel, by decide +kernel⟩

/-- C66 is violated: the size of a block is not compared with what its data gives. An LZVN block of 3 bytes
with no operations gives 3 bytes that were not written. -/
theorem C66_violated_size :
    Lzfse.decompress ([0x62#8, 0x76#8, 0x78#8, 0x6e#8] ++ le 4 3 ++ le 4 1 ++ [6#8] ++ [0x62#8, 0x76#8, 0x78#8, 0x24#8])
      [1#8, 2#8, 3#8, 4#8] = .ok ([1#8, 2#8, 3#8, 4#8], 3) ∧
    Lzfse.decompress ([0x62#8, 0x76#8, 0x78#8, 0x6e#8] ++ le 4 3 ++ le 4 1 ++ [6#8] ++ [0x62#8, 0x76#8, 0x78#8, 0x24#8])
      [5#8, 6#8, 7#8, 8#8] = .ok ([5#8, 6#8, 7#8, 8#8], 3) :=
  ⟨by decide +kernel, by decide +kernel⟩

/-- A version 2 block with one byte for its 360 frequencies. -/
def shortTable : List Byte :=
  [0x62#8, 0x76#8, 0x78#8, 0x32#8] ++ le 4 0 ++ le 8 0 ++ le 8 0 ++ le 8 33 ++ List.replicate 9 0#8

/-- C66 is violated: a block whose frequency table is too short makes the call panic, whatever the
buffer. -/
theorem C66_violated_truncated (buf : List Byte) (hne : buf ≠ []) : Lzfse.decompress shortTable buf = .panic := by
  have hpos : 0 < buf.length := List.length_pos_iff.2 hne
  have hlen : shortTable.length = 41 := by decide +kernel
  have hb : Lzfse.blockV2 shortTable 8 (List.replicate 360 0) = .panic := by decide +kernel
  unfold Lzfse.decompress Lzfse.maxTurns
  obtain ⟨k, hk⟩ : ∃ k, (shortTable.length + 2) * (shortTable.length + 2) * (buf.length + 2) = k + 1 :=
    ⟨_, (Nat.succ_pred_eq_of_pos (Nat.mul_pos (by decide +kernel) (by omega))).symm⟩
  rw [hk]
  unfold Lzfse.loop
  rw [if_pos ⟨by simp only; omega, by simp only; omega⟩]
  unfold Lzfse.turn
  simp only
  rw [R.subU_ok (by decide +kernel), R.ok_bind, R.require_true (by decide +kernel), R.ok_bind,
    show u32le shortTable 0 = .ok 0x32787662 by decide +kernel, R.ok_bind,
    if_neg (by decide), R.require_true (by decide), R.ok_bind, R.subU_ok (by decide +kernel), R.ok_bind,
    R.require_true (by decide +kernel), R.ok_bind, show u32le shortTable (0 + 4) = .ok 0 by decide +kernel,
    R.ok_bind, R.subU_ok (by omega), R.ok_bind, R.require_true (by omega), R.ok_bind]
  unfold Lzfse.dispatch
  rw [if_neg (by decide), if_neg (by decide), if_pos (by decide)]
  simp only [Nat.zero_add]
  rw [hb]
  rfl

/-- A raw block of 754 bytes, and a version 1 block without literals and steps. -/
def endless : List Byte :=
  [0x62#8, 0x76#8, 0x78#8, 0x2d#8] ++ (le 4 754 ++ (List.replicate 754 0#8 ++ ([0x62#8, 0x76#8, 0x78#8, 0x31#8] ++ List.replicate 766 0#8)))

/-- C66 is violated: after a version 1 block decompression goes on at offset 762 of the stream. With such a block
at that offset it never returns, whatever the buffer, as long as there is room in it. -/
theorem C66_violated_endless (buf : List Byte) (hne : 754 < buf.length) : Lzfse.decompress endless buf = .panic := by
  have hlen : endless.length = 1532 := by decide +kernel
  have again : ∀ (fuel : Nat) (buf' : List Byte), 754 < buf'.length →
      Lzfse.loop endless fuel ⟨762, 754, List.replicate 360 0, buf'⟩ = .panic := by
    intro fuel
    induction fuel with
    | zero => intro _ _; rfl
    | succ fuel ih =>
      intro buf' hb
      unfold Lzfse.loop
      rw [if_pos ⟨by simp only; omega, by simp only; omega⟩]
      have hv : Lzfse.blockV1 endless 770 = .ok (⟨0, 0, 0, 0, 0, 0, 0, 0, 0, 0, 0, 0, 0⟩, List.replicate 360 0, 762) := by decide +kernel
      have ht : Lzfse.tables (List.replicate 360 0) = .ok ⟨[], [], [], []⟩ := by
        unfold Lzfse.tables
        rw [show Lzfse.buildValueTable 64 ((List.replicate 360 0).take 20) Lzfse.lBits Lzfse.lBase = .ok [] by decide +kernel, R.ok_bind,
          show Lzfse.buildValueTable 64 (((List.replicate 360 0).drop 20).take 20) Lzfse.mBits Lzfse.mBase = .ok [] by decide +kernel, R.ok_bind,
          show Lzfse.buildValueTable 256 (((List.replicate 360 0).drop 40).take 64) Lzfse.dBits Lzfse.dBase = .ok [] by decide +kernel, R.ok_bind,
          show Lzfse.buildTable 1024 (((List.replicate 360 0).drop 104).take 256) = .ok [] by decide +kernel, R.ok_bind]
        rfl
      have hturn : Lzfse.turn endless ⟨762, 754, List.replicate 360 0, buf'⟩
          = .ok (some ⟨762, 754, List.replicate 360 0, buf'⟩) := by
        unfold Lzfse.turn
        simp only
        rw [R.subU_ok (by decide +kernel), R.ok_bind, R.require_true (by decide +kernel), R.ok_bind,
          show u32le endless 762 = .ok 0x31787662 by decide +kernel, R.ok_bind,
          if_neg (by decide), R.require_true (by decide), R.ok_bind, R.subU_ok (by decide +kernel), R.ok_bind,
          R.require_true (by decide +kernel), R.ok_bind, show u32le endless (762 + 4) = .ok 0 by decide +kernel,
          R.ok_bind, R.subU_ok (by omega), R.ok_bind, R.require_true (by omega), R.ok_bind]
        unfold Lzfse.dispatch
        rw [if_neg (by decide), if_pos (by decide)]
        simp only [Nat.reduceAdd]
        rw [hv, R.ok_bind]
        unfold Lzfse.coded
        simp only
        rw [ht, R.ok_bind]
        unfold Lzfse.block
        simp only
        rw [hlen, R.subU_ok (by omega), R.ok_bind, R.require_true (by omega), R.ok_bind]
        rfl
      rw [hturn, R.ok_bind]
      exact ih buf' hb
  unfold Lzfse.decompress Lzfse.maxTurns
  obtain ⟨k, hk⟩ : ∃ k, (endless.length + 2) * (endless.length + 2) * (buf.length + 2) = k + 1 :=
    ⟨_, (Nat.succ_pred_eq_of_pos (Nat.mul_pos (by decide +kernel) (by omega))).symm⟩
  rw [hk]
  unfold Lzfse.loop
  rw [if_pos ⟨by simp only; omega, by simp only; omega⟩]
  unfold Lzfse.turn
  simp only
  rw [R.subU_ok (by decide +kernel), R.ok_bind, R.require_true (by decide +kernel), R.ok_bind,
    show u32le endless 0 = .ok 0x2d787662 by decide +kernel, R.ok_bind,
    if_neg (by decide), R.require_true (by decide), R.ok_bind, R.subU_ok (by decide +kernel), R.ok_bind,
    R.require_true (by decide +kernel), R.ok_bind, show u32le endless (0 + 4) = .ok 754 by decide +kernel,
    R.ok_bind, R.subU_ok (by omega), R.ok_bind, R.require_true (by omega), R.ok_bind]
  unfold Lzfse.dispatch
  rw [if_pos (by decide)]
  simp only [Nat.zero_add, Nat.reduceAdd]
  rw [hlen, R.subU_ok (by omega), R.ok_bind, R.require_true (by omega), R.ok_bind,
    show R.slice endless 8 762 = .ok (List.replicate 754 0#8) by decide +kernel, R.ok_bind,
    R.splice_ok (by omega) (by omega) (by rw [List.length_replicate]), R.ok_bind, R.pure_eq, R.ok_bind, R.pure_eq, R.ok_bind]
  exact again k _ (by simp only [List.length_append, List.length_take, List.length_replicate, List.length_drop]; omega)

/-- C66: data that starts with no known marker is refused, as is data of less than 4 bytes. -/
theorem C66_marker (data buf : List Byte) (hne : data ≠ []) (hbuf : buf ≠ [])
    (hm : data.length < 4 ∨ ∀ c ∈ ([0x24#8, 0x2d#8, 0x31#8, 0x32#8, 0x6e#8] : List Byte), data.take 4 ≠ [0x62#8, 0x76#8, 0x78#8, c]) :
    Lzfse.decompress data buf = .err := by
  have h0 : 0 < data.length := List.length_pos_iff.2 hne
  have h1 : 0 < buf.length := List.length_pos_iff.2 hbuf
  unfold Lzfse.decompress
  obtain ⟨n, hn⟩ : ∃ n, Lzfse.maxTurns data buf = n + 1 := ⟨Lzfse.maxTurns data buf - 1, by
    have : 0 < Lzfse.maxTurns data buf := by unfold Lzfse.maxTurns; positivity
    omega⟩
  rw [hn, Lzfse.loop, if_pos ⟨h0, by simp only; omega⟩]
  unfold Lzfse.turn
  rw [R.subU_ok (Nat.zero_le _), R.ok_bind]
  by_cases h4 : data.length < 4
  · rw [R.require_false (by omega)]; rfl
  · rw [R.require_true (by omega), R.ok_bind]
    have hm := hm.resolve_left h4
    clear hn
    match data, h4, hm with
    | [], h4, _ => exact absurd (by simp) h4
    | [_], h4, _ => exact absurd (by simp) h4
    | [_, _], h4, _ => exact absurd (by simp) h4
    | [_, _, _], h4, _ => exact absurd (by simp) h4
    | a :: b :: c :: d :: rest, _, hm =>
      have e : u32le (a :: b :: c :: d :: rest) 0 = .ok (leNat [a, b, c, d]) := by
        unfold u32le
        rw [R.slice_ok (by omega) (by simp)]
        rfl
      simp only
      rw [e, R.ok_bind]
      have key : (∀ v, leNat [a, b, c, d] = leNat [0x62#8, 0x76#8, 0x78#8, v] → [a, b, c, d] = [0x62#8, 0x76#8, 0x78#8, v]) := by
        intro v h
        simp only [leNat] at h
        have ha := a.isLt; have hb := b.isLt; have hc := c.isLt; have hd := d.isLt; have hv := v.isLt
        simp only [BitVec.toNat_ofNat] at h
        have e1 : a = 0x62#8 := BitVec.eq_of_toNat_eq (by simp only [BitVec.toNat_ofNat]; omega)
        have e2 : b = 0x76#8 := BitVec.eq_of_toNat_eq (by simp only [BitVec.toNat_ofNat]; omega)
        have e3 : c = 0x78#8 := BitVec.eq_of_toNat_eq (by simp only [BitVec.toNat_ofNat]; omega)
        have e4 : d = v := BitVec.eq_of_toNat_eq (by omega)
        rw [e1, e2, e3, e4]
      have not : ∀ v ∈ ([0x24#8, 0x2d#8, 0x31#8, 0x32#8, 0x6e#8] : List Byte), leNat [a, b, c, d] ≠ leNat [0x62#8, 0x76#8, 0x78#8, v] := fun v hv h =>
        hm v hv (key v h)
      have n1 : leNat [a, b, c, d] ≠ 0x24787662 := not 0x24#8 (by simp)
      have n2 : leNat [a, b, c, d] ≠ 0x2d787662 := not 0x2d#8 (by simp)
      have n3 : leNat [a, b, c, d] ≠ 0x31787662 := not 0x31#8 (by simp)
      have n4 : leNat [a, b, c, d] ≠ 0x32787662 := not 0x32#8 (by simp)
      have n5 : leNat [a, b, c, d] ≠ 0x6e787662 := not 0x6e#8 (by simp)
      rw [if_neg n1, R.require_false (by omega)]
      rfl

example : ∀ c ∈ ([0x24#8, 0x2d#8, 0x31#8, 0x32#8, 0x6e#8] : List Byte), ([0x62#8, 0x76#8, 0x78#8, 0x33#8, 0#8] : List Byte).take 4 ≠ [0x62#8, 0x76#8, 0x78#8, c] := by decide

end Keramics.Props
