import Verif.Lemmas.Lz
import Verif.Model.Adc
import Verif.Spec.Adc

/-!
C23: ADC decompression.
-/

namespace Keramics.Adc
open Spec.Adc Spec.Lz

theorem masks : ∀ op < 256, (op &&& 0x80 ≠ 0 ↔ 128 ≤ op) ∧ op &&& 0x7f = op % 128 ∧
    (op &&& 0x40 ≠ 0 ↔ 64 ≤ op % 128) ∧ op &&& 0x3f = op % 64 ∧ op &&& 0x03 = op % 4 := by
  decide +kernel

theorem or8 (a b : Nat) (hb : b < 256) : (a <<< 8) ||| b = a * 256 + b := by
  rw [Nat.shiftLeft_eq]
  have := Nat.two_pow_add_eq_or_of_lt (i := 8) hb a
  rw [show (2:Nat) ^ 8 = 256 from rfl] at this ⊢
  rw [Nat.mul_comm a 256, this]

theorem op_length (t : Token) (h : t.wf) (out : List Byte) :
    out.length < (t.op.run out).length := by
  cases t <;> simp only [Token.wf] at h <;> simp [Token.op, Op.run] <;> omega

theorem encode_ne_nil (t : Token) : t.encode ≠ [] := by cases t <;> simp [Token.encode]

theorem u16be_two {data : List Byte} {c : Nat} {a b : Byte} {post}
    (h : data.drop c = a :: b :: post) : u16be data c = .ok (a.toNat * 256 + b.toNat) := by
  have hl := R.length_of_drop (s := [a, b]) h (by simp)
  unfold u16be
  have := R.slice_of_drop (s := [a, b]) h (by simp at hl; omega)
  rw [show c + [a, b].length = c + 2 from rfl] at this
  rw [this, R.ok_bind, R.pure_eq]
  simp [beNat, leNat]
  omega

theorem ofNat_toNat {n : Nat} (h : n < 256) : (BitVec.ofNat 8 n).toNat = n := by
  rw [BitVec.toNat_ofNat]; omega

/-- One token is decoded to what it denotes. -/
theorem step_ok {data : List Byte} {c : Nat} {post : List Byte} (t : Token) (hw : t.wf)
    (hd : data.drop c = t.encode ++ post) (out rest : List Byte) (hok : t.op.ok out)
    (hlen : (t.op.run out).length ≤ (out ++ rest).length) :
    step data c (out ++ rest) out.length = .ok (c + t.encode.length,
      t.op.run out ++ rest.drop ((t.op.run out).length - out.length), (t.op.run out).length) := by
  have hL := R.length_of_drop hd (encode_ne_nil t)
  unfold step
  cases t with
  | literal bytes =>
    simp only [Token.wf] at hw
    simp only [Token.encode, List.cons_append, List.length_cons] at hd hL
    simp only [Token.op, Op.run, List.length_append] at hlen ⊢
    have hop : (BitVec.ofNat 8 (0x80 + (bytes.length - 1))).toNat = 0x80 + (bytes.length - 1) :=
      ofNat_toNat (by omega)
    obtain ⟨m1, m2, _⟩ := masks (0x80 + (bytes.length - 1)) (by omega)
    rw [R.require_true (by omega), R.ok_bind, R.get_of_drop hd, R.ok_bind]
    simp only [hop]
    rw [if_pos (m1.mpr (by omega)), m2]
    have hsz : (0x80 + (bytes.length - 1)) % 128 + 1 = bytes.length := by omega
    rw [hsz]
    have hd2 := R.drop_succ_of_drop hd
    rw [R.subU_ok (by omega), R.ok_bind, R.require_true (by omega), R.ok_bind,
      R.subU_ok (by simp), R.ok_bind, R.require_true (by simp; omega), R.ok_bind,
      R.slice_of_drop hd2 (by omega), R.ok_bind, Lz.splice_literal _ _ _ (by omega), R.ok_bind]
    simp only [R.pure_eq, Token.encode, List.length_cons]
    rw [show out.length + bytes.length - out.length = bytes.length by omega,
      show c + 1 + bytes.length = c + (bytes.length + 1) by omega]
  | short d n =>
    simp only [Token.wf] at hw
    simp only [Token.encode, List.cons_append, List.nil_append, List.length_cons, List.length_nil] at hd hL
    simp only [Token.op, Op.run, List.length_append, Lz.copy_length, Op.ok] at hlen hok ⊢
    obtain ⟨m1, m2, m3, m4, m5⟩ := masks ((n - 3) * 4 + (d - 1) / 256) (by omega)
    rw [R.require_true (by omega), R.ok_bind, R.get_of_drop hd, R.ok_bind]
    simp only [ofNat_toNat (show (n - 3) * 4 + (d - 1) / 256 < 256 by omega)]
    rw [if_neg (by rw [m1]; omega)]
    have hd2 := R.drop_succ_of_drop hd
    unfold readMatch
    rw [if_neg (by rw [m3]; omega), R.require_true (by omega), R.ok_bind, R.get_of_drop hd2, R.ok_bind,
      R.pure_eq, R.ok_bind]
    simp only
    rw [ofNat_toNat (show (d - 1) % 256 < 256 by omega), m4, m5, or8 _ _ (by omega), Nat.shiftRight_eq_div_pow]
    have e1 : ((n - 3) * 4 + (d - 1) / 256) % 64 / 2 ^ 2 + 3 = n := by omega
    have e2 : ((n - 3) * 4 + (d - 1) / 256) % 4 * 256 + (d - 1) % 256 = d - 1 := by omega
    rw [e1, e2, R.require_true (by omega), R.ok_bind, R.require_true (by omega), R.ok_bind,
      R.subU_ok (by simp), R.ok_bind, R.require_true (by simp; omega), R.ok_bind,
      show out.length - (d - 1) - 1 = out.length - d by omega,
      Lz.copyMatch_ok d n out rest (by omega) (by omega) (by omega), R.ok_bind]
    simp only [R.pure_eq, Token.encode, List.length_cons, List.length_nil]
    rw [show out.length + n - out.length = n by omega]
  | long d n =>
    simp only [Token.wf] at hw
    simp only [Token.encode, List.cons_append, List.nil_append, List.length_cons, List.length_nil] at hd hL
    simp only [Token.op, Op.run, List.length_append, Lz.copy_length, Op.ok] at hlen hok ⊢
    obtain ⟨m1, m2, m3, m4, m5⟩ := masks (0x40 + (n - 4)) (by omega)
    rw [R.require_true (by omega), R.ok_bind, R.get_of_drop hd, R.ok_bind]
    simp only [ofNat_toNat (show 0x40 + (n - 4) < 256 by omega)]
    rw [if_neg (by rw [m1]; omega)]
    have hd2 := R.drop_succ_of_drop hd
    unfold readMatch
    rw [if_pos (by rw [m3]; omega), R.subU_ok (by omega), R.ok_bind, R.require_true (by omega), R.ok_bind,
      u16be_two hd2, R.ok_bind, R.pure_eq, R.ok_bind]
    simp only
    rw [ofNat_toNat (show (d - 1) % 256 < 256 by omega),
      ofNat_toNat (show (d - 1) / 256 < 256 by omega), m4]
    have e1 : (0x40 + (n - 4)) % 64 + 4 = n := by omega
    have e2 : (d - 1) / 256 * 256 + (d - 1) % 256 = d - 1 := by omega
    rw [e1, e2, R.require_true (by omega), R.ok_bind, R.require_true (by omega), R.ok_bind,
      R.subU_ok (by simp), R.ok_bind, R.require_true (by simp; omega), R.ok_bind,
      show out.length - (d - 1) - 1 = out.length - d by omega,
      Lz.copyMatch_ok d n out rest (by omega) (by omega) (by omega), R.ok_bind]
    simp only [R.pure_eq, Token.encode, List.length_cons, List.length_nil]
    rw [show out.length + n - out.length = n by omega]

theorem loop_ok {data : List Byte} (ts : List Token) (fuel c : Nat) (out rest : List Byte)
    (hf : data.length ≤ c + fuel) (hc : c ≤ data.length) (hw : ∀ t ∈ ts, t.wf)
    (hok : Ok out (ts.map Token.op)) (hd : data.drop c = Spec.Adc.encode ts)
    (hlen : (run out (ts.map Token.op)).length ≤ (out ++ rest).length) :
    loop data fuel c (out ++ rest) out.length = .ok
      (run out (ts.map Token.op) ++ rest.drop ((run out (ts.map Token.op)).length - out.length),
       (run out (ts.map Token.op)).length) := by
  induction ts generalizing fuel c out rest with
  | nil =>
    have : data.length = c := by
      have h := congrArg List.length hd
      simp [Spec.Adc.encode] at h
      omega
    unfold loop
    rw [if_neg (by omega)]
    simp [run]
  | cons t ts ih =>
    have hd' : data.drop c = t.encode ++ Spec.Adc.encode ts := by
      rw [hd]; simp [Spec.Adc.encode]
    have hL := R.length_of_drop hd' (encode_ne_nil t)
    have ht := hw t (by simp)
    have hpos : 0 < t.encode.length := List.length_pos_iff.mpr (encode_ne_nil t)
    simp only [List.map_cons, run, Ok] at hok hlen ⊢
    have h1 := op_length t ht out
    have h2 := Lz.le_run (t.op.run out) (ts.map Token.op)
    simp only [List.length_append] at hlen
    cases fuel with
    | zero => omega
    | succ fuel =>
      unfold loop
      rw [if_pos (by omega), if_neg (by simp only [List.length_append]; omega)]
      simp only
      rw [step_ok t ht hd' out rest hok.1 (by simp; omega), R.ok_bind]
      simp only
      have := ih fuel (c + t.encode.length) (t.op.run out)
        (rest.drop ((t.op.run out).length - out.length)) (by omega) (by omega)
        (fun t' h => hw t' (by simp [h])) hok.2 (R.drop_add_of_drop hd') (by simp; omega)
      rw [this, List.drop_drop]
      congr 4
      omega

/-- What one successful iteration does, on any input. -/
def StepSpec (data : List Byte) (c : Nat) (out rest : List Byte) (r : Nat × List Byte × Nat) : Prop :=
  ∃ t : Token, t.wf ∧ t.op.ok out ∧ data.drop c = t.encode ++ data.drop r.1 ∧
    r.1 = c + t.encode.length ∧ r.1 ≤ data.length ∧
    (t.op.run out).length ≤ (out ++ rest).length ∧
    r.2.1 = t.op.run out ++ rest.drop ((t.op.run out).length - out.length) ∧
    r.2.2 = (t.op.run out).length

theorem copy_spec {data : List Byte} {c c' : Nat} (t : Token) (d n : Nat) (ht : t.wf)
    (hop : t.op = .copy d n)
    (hd : data.drop c = t.encode ++ data.drop c') (hc : c' = c + t.encode.length) (hc' : c' ≤ data.length)
    (out rest : List Byte) (h1 : 1 ≤ d) (h2 : d ≤ out.length) (h3 : n ≤ rest.length) :
    R.Sat (do
      let buf ← Lz.copyMatch n (out ++ rest) out.length (out.length - d)
      pure (c', buf, out.length + n)) (StepSpec data c out rest) := by
  rw [Lz.copyMatch_ok d n out rest h1 h2 h3, R.ok_bind]
  refine R.sat_pure ⟨t, ht, ?_, hd, hc, hc', ?_, ?_, ?_⟩
  · rw [hop]; exact ⟨h1, h2⟩
  · rw [hop]; simp [Op.run]; omega
  · rw [hop]; simp [Op.run]
  · rw [hop]; simp [Op.run]

theorem byte_ofNat {b : Byte} {n : Nat} (h : n = b.toNat) : BitVec.ofNat 8 n = b := by
  subst h; simp

theorem step_sat (data : List Byte) (c : Nat) (out rest : List Byte) (hc : c < data.length) :
    R.Sat (step data c (out ++ rest) out.length) (StepSpec data c out rest) := by
  unfold step
  refine R.Sat.bind R.sat_require fun _ _ => ?_
  refine R.Sat.bind (R.sat_get hc) fun b hb => ?_
  have hbl := b.isLt
  obtain ⟨m1, m2, m3, m4, m5⟩ := masks b.toNat (by omega)
  have hdrop := R.drop_of_get hb
  refine R.sat_ite (fun h => ?_) (fun h => ?_)
  · refine R.Sat.bind (R.sat_subU (by omega)) fun x hx => ?_
    refine R.Sat.bind R.sat_require fun _ h1 => ?_
    refine R.Sat.bind (R.sat_subU (by simp)) fun y hy => ?_
    refine R.Sat.bind R.sat_require fun _ h2 => ?_
    rw [m2] at h1 h2 ⊢
    rw [m1] at h
    subst hx hy
    refine R.Sat.bind (R.sat_slice (by omega) (by omega)) fun bytes hbytes => ?_
    have hlen : bytes.length = b.toNat % 128 + 1 := by
      rw [hbytes]; simp; omega
    simp only [List.length_append] at h2
    rw [← hlen, Lz.splice_literal _ _ _ (by omega), R.ok_bind]
    refine R.sat_pure ⟨.literal bytes, ⟨by omega, by omega⟩, trivial, ?_, ?_, ?_, ?_, ?_, ?_⟩
    · rw [hdrop]
      simp only [Token.encode, List.cons_append]
      rw [byte_ofNat (b := b) (by omega)]
      congr 1
      rw [hlen, ← List.drop_drop (i := b.toNat % 128 + 1)]
      have : bytes = List.take (b.toNat % 128 + 1) (List.drop (c + 1) data) := by
        rw [hbytes]; congr 1; omega
      rw [this, List.take_append_drop]
    · simp [Token.encode]; omega
    · simp only; omega
    · simp [Token.op, Op.run]; omega
    · simp [Token.op, Op.run]
    · simp [Token.op, Op.run]
  · rw [m1] at h
    unfold readMatch
    by_cases h40 : b.toNat &&& 0x40 ≠ 0
    · rw [if_pos h40]
      rw [m3] at h40
      simp only [bind_assoc, pure_bind]
      refine R.Sat.bind (R.sat_subU (by omega)) fun x hx => ?_
      refine R.Sat.bind R.sat_require fun _ h1 => ?_
      subst hx
      have h2 : data.drop (c + 1) = data[c + 1] :: data[c + 1 + 1] :: data.drop (c + 1 + 1 + 1) := by
        rw [List.drop_eq_getElem_cons (by omega), List.drop_eq_getElem_cons (by omega)]
      rw [u16be_two h2, R.ok_bind]
      generalize data[c + 1] = x at h2 ⊢
      generalize data[c + 1 + 1] = y at h2 ⊢
      have hx := x.isLt
      have hy := y.isLt
      refine R.Sat.bind R.sat_require fun _ h3 => ?_
      refine R.Sat.bind R.sat_require fun _ h4 => ?_
      refine R.Sat.bind (R.sat_subU (by simp)) fun z hz => ?_
      refine R.Sat.bind R.sat_require fun _ h5 => ?_
      subst hz
      simp only [List.length_append] at h5
      rw [m4] at h5 ⊢
      rw [show out.length - (x.toNat * 256 + y.toNat) - 1 = out.length - (x.toNat * 256 + y.toNat + 1) by
        omega]
      refine copy_spec (.long (x.toNat * 256 + y.toNat + 1) (b.toNat % 64 + 4)) _ _
        ⟨by omega, by omega, by omega, by omega⟩ rfl ?_ ?_ ?_ out rest (by omega) (by omega) (by omega)
      · rw [hdrop, h2]
        simp only [Token.encode, List.cons_append, List.nil_append]
        rw [byte_ofNat (b := b) (by omega), byte_ofNat (b := x) (by omega), byte_ofNat (b := y) (by omega)]
      · simp [Token.encode]
      · omega
    · rw [if_neg h40]
      rw [m3] at h40
      simp only [bind_assoc, pure_bind]
      refine R.Sat.bind R.sat_require fun _ h1 => ?_
      refine R.Sat.bind (R.sat_get h1) fun x hx => ?_
      have h2 := R.drop_of_get hx
      have hx := x.isLt
      refine R.Sat.bind R.sat_require fun _ h3 => ?_
      refine R.Sat.bind R.sat_require fun _ h4 => ?_
      refine R.Sat.bind (R.sat_subU (by simp)) fun z hz => ?_
      refine R.Sat.bind R.sat_require fun _ h5 => ?_
      subst hz
      simp only [List.length_append] at h5
      rw [m4, Nat.shiftRight_eq_div_pow] at h5 ⊢
      rw [m5, or8 _ _ (by omega)] at h4 ⊢
      rw [show out.length - (b.toNat % 4 * 256 + x.toNat) - 1
          = out.length - (b.toNat % 4 * 256 + x.toNat + 1) by omega]
      refine copy_spec (.short (b.toNat % 4 * 256 + x.toNat + 1) (b.toNat % 64 / 2 ^ 2 + 3)) _ _
        ⟨by omega, by omega, by omega, by omega⟩ rfl ?_ ?_ ?_ out rest (by omega) (by omega) (by omega)
      · rw [hdrop, h2]
        simp only [Token.encode, List.cons_append, List.nil_append]
        rw [byte_ofNat (b := b) (by omega), byte_ofNat (b := x) (by omega)]
      · simp [Token.encode]
      · omega

theorem loop_sat {data : List Byte} (fuel c : Nat) (out rest : List Byte)
    (hf : data.length ≤ c + fuel) (hc : c ≤ data.length) :
    R.Sat (loop data fuel c (out ++ rest) out.length) fun r =>
      ∃ ts : List Token, (∀ t ∈ ts, t.wf) ∧ Ok out (ts.map Token.op) ∧
        (data.drop c = Spec.Adc.encode ts ∨ Spec.Adc.encode ts <+: data.drop c ∧ r.2 = r.1.length) ∧
        r.1 = run out (ts.map Token.op) ++ rest.drop (r.2 - out.length) ∧
        r.2 = (run out (ts.map Token.op)).length ∧ r.2 ≤ (out ++ rest).length := by
  induction fuel generalizing c out rest with
  | zero =>
    unfold loop
    rw [if_neg (by omega)]
    refine R.sat_ok ⟨[], by simp, trivial, .inl ?_, ?_, ?_, ?_⟩
    · simp [Spec.Adc.encode]; omega
    · simp [run]
    · simp [run]
    · simp
  | succ fuel ih =>
    unfold loop
    refine R.sat_ite (fun h1 => ?_) (fun h1 => ?_)
    · refine R.sat_ite (fun h2 => ?_) (fun h2 => ?_)
      · refine R.sat_ok ⟨[], by simp, trivial, .inr ⟨by simp [Spec.Adc.encode], ?_⟩, ?_, ?_, ?_⟩
        · simp at h2 ⊢; omega
        · simp [run]
        · simp [run]
        · simp
      · simp only
        refine R.Sat.bind (step_sat data c out rest h1) fun r hr => ?_
        obtain ⟨t, t1, t2, t3, t4, t5, t6, t7, t8⟩ := hr
        obtain ⟨c', buf', o'⟩ := r
        simp only at t3 t4 t5 t7 t8 ⊢
        subst t7 t8
        have hpos : 0 < t.encode.length := List.length_pos_iff.mpr (encode_ne_nil t)
        refine R.Sat.mono (ih c' (t.op.run out) _ (by omega) t5) ?_
        rintro ⟨rb, ro⟩ ⟨ts, s1, s2, s3, s4, s5, s6⟩
        simp only at s3 s4 s5 s6 ⊢
        have h3 := op_length t t1 out
        refine ⟨t :: ts, by simpa using ⟨t1, s1⟩, ⟨t2, s2⟩, ?_, ?_, s5, ?_⟩
        · rcases s3 with s3 | ⟨s3, s3'⟩
          · left
            rw [t3, s3]; simp [Spec.Adc.encode]
          · right
            refine ⟨?_, s3'⟩
            rw [t3]
            obtain ⟨w, hw⟩ := s3
            exact ⟨w, by rw [← hw]; simp [Spec.Adc.encode]⟩
        · simp only [List.map_cons, run]
          have h4 := Lz.le_run (t.op.run out) (ts.map Token.op)
          rw [s4, List.drop_drop]
          congr 2
          omega
        · simp only [List.length_append, List.length_drop] at s6 t6 ⊢
          omega
    · refine R.sat_ok ⟨[], by simp, trivial, .inl ?_, ?_, ?_, ?_⟩
      · simp [Spec.Adc.encode]; omega
      · simp [run]
      · simp [run]
      · simp

end Keramics.Adc

namespace Keramics.Props
open Keramics.Spec.Adc

/-- C23, decoding: the encoding of any valid token list decompresses, into any buffer that is large
enough, to the bytes the tokens denote; the reported size is their number and the rest of the buffer
is left as it was. -/
theorem C23_adc_decode (ts : List Token) (hv : Valid ts) (buf : List Byte)
    (hbuf : (denote ts).length ≤ buf.length) :
    Adc.decompress (encode ts) buf
      = .ok (denote ts ++ buf.drop (denote ts).length, (denote ts).length) := by
  have := Adc.loop_ok (data := encode ts) ts (encode ts).length 0 [] buf (by omega) (by omega) hv.1 hv.2
    (by simp) (by simpa [denote] using hbuf)
  simpa [Adc.decompress, denote] using this

/-- C23, arbitrary input: decompression of any bytes into any buffer does not panic, and if it
succeeds the reported size fits the buffer, and the buffer holds exactly what some valid token list
denotes, whose encoding is the whole input or, when the buffer is full, the start of it. -/
theorem C23_adc_sound (data buf : List Byte) :
    Adc.decompress data buf ≠ .panic ∧
    ∀ out size, Adc.decompress data buf = .ok (out, size) →
      size ≤ buf.length ∧ ∃ ts, Valid ts ∧ size = (denote ts).length ∧
        out = denote ts ++ buf.drop size ∧
        (data = encode ts ∨ encode ts <+: data ∧ size = buf.length) := by
  have h := Adc.loop_sat (data := data) data.length 0 [] buf (by omega) (by omega)
  refine ⟨h.ne_panic, fun out size e => ?_⟩
  obtain ⟨ts, h1, h2, h3, h4, h5, h6⟩ := h.of_ok e
  simp only [List.drop_zero, List.nil_append, List.length_nil, Nat.sub_zero] at h3 h4 h5 h6
  refine ⟨h6, ts, ⟨h1, h2⟩, h5, h4, ?_⟩
  rcases h3 with h3 | ⟨h3, h3'⟩
  · exact .inl h3
  · refine .inr ⟨h3, ?_⟩
    rw [h3', h4]
    simp only [List.length_append, List.length_drop]
    rw [← h5]
    omega

/-- A literal, an overlapping short match and a long match. -/
example : Valid [.literal [1#8, 2#8], .short 1 5, .long 7 4] ∧
    Adc.decompress (encode [.literal [1#8, 2#8], .short 1 5, .long 7 4]) (List.replicate 12 9#8)
      = .ok ([1#8, 2#8, 2#8, 2#8, 2#8, 2#8, 2#8, 1#8, 2#8, 2#8, 2#8, 9#8], 11) := by
  refine ⟨⟨?_, ?_⟩, by decide +kernel⟩
  · simp [Token.wf]
  · simp [Spec.Lz.Ok, Spec.Lz.Op.ok, Token.op, Spec.Lz.Op.run]

end Keramics.Props
