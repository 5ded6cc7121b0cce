import Verif.Base.Tactics
import Verif.Model.Base64
import Verif.Spec.Base64

/-! Property theorems: base64 (C17). -/

namespace Keramics.Props
open Keramics Keramics.Base64 Keramics.Spec.Base64

theorem kind_char (v : Nat) (h : v < 64) : kind (char v) = .sixtet v := by
  revert v; decide +kernel

theorem kind_space (b : Byte) : kind b = .space ↔ isSpace b = true := by
  obtain ⟨n, hn⟩ : ∃ n : Fin 256, b = BitVec.ofNat 8 n.1 := ⟨⟨b.toNat, b.isLt⟩, by simp⟩
  subst hn
  revert n; decide +kernel

theorem isSpace_char (v : Nat) (h : v < 64) : isSpace (char v) = false := by
  revert v; decide +kernel

/-- Texts a stream reads as the character list `cs`: equal after dropping white space, which is
only allowed when it is skipped. -/
def Reads (skip : Bool) (text cs : List Byte) : Prop :=
  text.filter (! isSpace ·) = cs ∧ (skip = false → ∀ b ∈ text, isSpace b = false)

theorem reads_split {skip text c cs} (h : Reads skip text (c :: cs)) :
    ∃ ws text', text = ws ++ c :: text' ∧ (∀ b ∈ ws, isSpace b = true) ∧ (skip = false → ws = [])
      ∧ Reads skip text' cs := by
  obtain ⟨h, hs⟩ := h
  induction text with
  | nil => simp at h
  | cons b text ih =>
    cases hb : isSpace b with
    | false =>
      simp only [List.filter_cons, hb, Bool.not_false, if_true, List.cons.injEq] at h
      exact ⟨[], text, by simp [h.1], by simp, by simp, h.2,
        fun e x hx => hs e x (List.mem_cons_of_mem _ hx)⟩
    | true =>
      simp only [List.filter_cons, hb, Bool.not_true, Bool.false_eq_true, if_false] at h
      have hsk : skip = true := by
        cases skip with
        | true => rfl
        | false => have := hs rfl b List.mem_cons_self; rw [hb] at this; cases this
      obtain ⟨ws, t, h1, h2, _, h4⟩ := ih h (fun e => by rw [hsk] at e; cases e)
      refine ⟨b :: ws, t, by simp [h1], ?_, by simp [hsk], h4⟩
      intro x hx
      cases hx with
      | head => exact hb
      | tail _ hx => exact h2 x hx

theorem fill_spaces (skip : Bool) (ws rest : List Byte) (off bits nb : Nat)
    (hws : ∀ b ∈ ws, isSpace b = true) (hs : skip = false → ws = []) (hnb : nb < 8) :
    fill skip (ws ++ rest) off bits nb = fill skip rest (off + ws.length) bits nb := by
  induction ws generalizing off with
  | nil => simp
  | cons b ws ih =>
    have hk := (kind_space b).mpr (hws b List.mem_cons_self)
    have hsk : skip = true := by
      cases skip with
      | true => rfl
      | false => exact absurd (hs rfl) (by simp)
    conv_lhs => unfold fill
    rw [if_pos hnb]
    simp only [List.cons_append, hk, hsk, if_true]
    rw [← hsk, ih _ (fun x hx => hws x (List.mem_cons_of_mem _ hx)) (by simp [hsk])]
    simp only [List.length_cons]
    congr 1; omega

theorem shift_in {bits v : Nat} (hb : bits < 2 ^ 26) (hv : v < 64) :
    ((bits <<< 6) % 2 ^ 32) ||| v = bits * 64 + v := by
  rw [Nat.shiftLeft_eq, Nat.mod_eq_of_lt (by omega), Nat.mul_comm,
    ← Nat.two_pow_add_eq_or_of_lt (by simpa using hv), Nat.mul_comm]

theorem fill_char {skip text v cs off bits nb} (hv : v < 64) (hb : bits < 2 ^ 26) (hnb : nb < 8)
    (h : Reads skip text (char v :: cs)) :
    ∃ text' off', Reads skip text' cs ∧ off + 1 ≤ off' ∧ (skip = false → off' = off + 1) ∧
      fill skip text off bits nb = fill skip text' off' (bits * 64 + v) (nb + 6) := by
  obtain ⟨ws, t, rfl, h2, h3, h4⟩ := reads_split h
  refine ⟨t, off + ws.length + 1, h4, by omega, fun e => by simp [h3 e], ?_⟩
  rw [fill_spaces skip ws _ off bits nb h2 h3 hnb]
  conv_lhs => unfold fill
  rw [if_pos hnb]
  simp only [kind_char v hv, shift_in hb hv]

theorem fill_full {skip text off bits nb} (h : ¬ nb < 8) :
    fill skip text off bits nb = .ok ⟨text, off, bits, nb, skip, false⟩ := by
  unfold fill; rw [if_neg h]

/-- Reading a byte from the bits buffer. -/
theorem takeByte_eq {text off bits nb skip found} (h8 : 8 ≤ nb) (hb : bits < 2 ^ nb) (hnb : nb ≤ 16) :
    takeByte ⟨text, off, bits, nb, skip, found⟩
      = (some (BitVec.ofNat 8 (bits / 2 ^ (nb - 8))),
        ⟨text, off, bits % 2 ^ (nb - 8), nb - 8, skip, found⟩) := by
  unfold takeByte
  rw [if_neg (by simpa using h8)]
  simp only [Nat.shiftRight_eq_div_pow, Prod.mk.injEq, State.mk.injEq, true_and]
  simp only [and_true]
  split
  · rename_i h
    rw [h]; simp [Nat.mod_one]
  · rename_i h
    have : 0xffffffff / 2 ^ (32 - (nb - 8)) = 2 ^ (nb - 8) - 1 := by
      have : nb = 9 ∨ nb = 10 ∨ nb = 11 ∨ nb = 12 ∨ nb = 13 ∨ nb = 14 ∨ nb = 15 ∨ nb = 16 := by omega
      rcases this with h | h | h | h | h | h | h | h <;> subst h <;> decide
    rw [this, Nat.and_two_pow_sub_one_eq_mod]

/-- With 2 to 7 bits buffered, one more character completes a byte. -/
theorem getValue_one {skip text v cs off bits nb} (hv : v < 64) (hb : bits < 2 ^ nb) (h2 : 2 ≤ nb)
    (hnb : nb < 8) (h : Reads skip text (char v :: cs)) :
    ∃ text' off', Reads skip text' cs ∧ (skip = false → off' = off + 1) ∧
      getValue ⟨text, off, bits, nb, skip, false⟩
        = .ok (some (BitVec.ofNat 8 ((bits * 64 + v) / 2 ^ (nb - 2))),
          ⟨text', off', (bits * 64 + v) % 2 ^ (nb - 2), nb - 2, skip, false⟩) := by
  have hb26 : bits < 2 ^ 26 := Nat.lt_of_lt_of_le hb (Nat.pow_le_pow_right (by omega) (by omega))
  obtain ⟨t, o, h1, _, ho, e⟩ := fill_char (off := off) hv hb26 hnb h
  refine ⟨t, o, h1, ho, ?_⟩
  unfold getValue refill
  simp only [Bool.false_eq_true, if_false]
  rw [e, fill_full (by omega), R.ok_bind, R.pure_eq, takeByte_eq (by omega) ?_ (by omega)]
  · rw [show nb + 6 - 8 = nb - 2 by omega]
  · rw [show nb + 6 = nb + 6 from rfl, Nat.pow_add]
    have : bits + 1 ≤ 2 ^ nb := hb
    have := Nat.mul_le_mul_right 64 this
    omega

/-- With no bits buffered, two characters complete a byte. -/
theorem getValue_two {skip text v w cs off} (hv : v < 64) (hw : w < 64)
    (h : Reads skip text (char v :: char w :: cs)) :
    ∃ text' off', Reads skip text' cs ∧ (skip = false → off' = off + 2) ∧
      getValue ⟨text, off, 0, 0, skip, false⟩
        = .ok (some (BitVec.ofNat 8 ((v * 64 + w) / 2 ^ 4)),
          ⟨text', off', (v * 64 + w) % 2 ^ 4, 4, skip, false⟩) := by
  obtain ⟨t, o, h1, _, ho, e⟩ := fill_char (off := off) (bits := 0) (nb := 0) hv (by omega) (by omega) h
  obtain ⟨t', o', h1', _, ho', e'⟩ := fill_char (off := o) (bits := v) (nb := 6) hw (by omega)
    (by omega) h1
  refine ⟨t', o', h1', fun hs => by rw [ho' hs, ho hs], ?_⟩
  unfold getValue refill
  simp only [Bool.false_eq_true, if_false]
  rw [e]
  simp only [Nat.zero_mul, Nat.zero_add]
  rw [e', fill_full (by omega), R.ok_bind, R.pure_eq, takeByte_eq (by omega) (by omega) (by omega)]

/-- At the padding, or at the end, the stream stops. -/
theorem getValue_stop {skip text off bits nb} (hnb : nb < 8)
    (h : Reads skip text [] ∨ ∃ cs, Reads skip text (pad :: cs)) :
    ∃ s, getValue ⟨text, off, bits, nb, skip, false⟩ = .ok (none, s) ∧
      (s.found = false ∨
        (s.found = true ∧ (∀ cs, Reads skip text (pad :: cs) → skip = false →
          s.offset = off ∧ s.rest = text))) := by
  rcases h with h | ⟨cs, h⟩
  · -- only white space left
    have hf : ∀ text off, Reads skip text [] →
        ∃ off', fill skip text off bits nb = .ok ⟨[], off', bits, nb, skip, false⟩ := by
      intro text off h
      have hws : ∀ b ∈ text, isSpace b = true := by
        intro b hb
        have := List.filter_eq_nil_iff.mp h.1 b hb
        simpa using this
      have he : skip = false → text = [] := by
        intro e
        cases text with
        | nil => rfl
        | cons b t => have := h.2 e b List.mem_cons_self; rw [hws b List.mem_cons_self] at this; cases this
      have := fill_spaces skip text [] off bits nb hws he hnb
      rw [List.append_nil] at this
      refine ⟨off + text.length, this.trans ?_⟩
      unfold fill
      rw [if_pos hnb]
    obtain ⟨o, ho⟩ := hf text off h
    refine ⟨⟨[], o, bits, nb, skip, false⟩, ?_, .inl rfl⟩
    unfold getValue refill
    simp only [Bool.false_eq_true, if_false]
    rw [ho, R.ok_bind, R.pure_eq]
    unfold takeByte
    simp [hnb]
  · obtain ⟨ws, t, rfl, h2, h3, h4⟩ := reads_split h
    refine ⟨⟨pad :: t, off + ws.length, bits, nb, skip, true⟩, ?_, .inr ⟨rfl, ?_⟩⟩
    · unfold getValue refill
      simp only [Bool.false_eq_true, if_false]
      rw [fill_spaces skip ws _ off bits nb h2 h3 hnb]
      unfold fill
      rw [if_pos hnb]
      have : kind pad = .padding := by decide
      simp only [this, R.ok_bind, R.pure_eq]
      unfold takeByte
      simp [hnb]
    · intro _ _ e
      simp [h3 e]

theorem values_cons {s s' : State} {v vs t} (h : getValue s = .ok (some v, s'))
    (h' : values s' = .ok (vs, t)) : values s = .ok (v :: vs, t) := by
  unfold values
  split
  · rename_i e; rw [h] at e; cases e
  · rename_i e; rw [h] at e; cases e
  · rename_i e; rw [h] at e; cases e
  · rename_i e; rw [h] at e; cases e; simp [h']

theorem values_nil {s s' : State} (h : getValue s = .ok (none, s')) : values s = .ok ([], s') := by
  unfold values
  split
  · rename_i e; rw [h] at e; cases e
  · rename_i e; rw [h] at e; cases e
  · rename_i e; rw [h] at e; cases e; rfl
  · rename_i e; rw [h] at e; cases e

/-- The stream over a text reads the encoded bytes, and in strict mode the final padding check
passes. -/
theorem values_encode (skip : Bool) (bytes text : List Byte) (off : Nat) (ho : skip = false → off % 4 = 0)
    (h : Reads skip text (encode bytes)) :
    ∃ t, values ⟨text, off, 0, 0, skip, false⟩ = .ok (bytes, t) ∧
      (skip = false → checkPadding t = .ok ()) := by
  match bytes with
  | [] =>
    obtain ⟨s, hs, hf⟩ := getValue_stop (off := off) (bits := 0) (nb := 0) (by omega) (.inl h)
    refine ⟨s, values_nil hs, fun e => ?_⟩
    rcases hf with hf | ⟨hf, _⟩
    · simp [checkPadding, hf]
    · -- the text is empty
      have ht : text = [] := by
        have := h.1
        rw [encode, List.filter_eq_nil_iff] at this
        cases text with
        | nil => rfl
        | cons b r =>
          have h1 := this b List.mem_cons_self
          have h2 := h.2 e b List.mem_cons_self
          rw [h2] at h1; simp at h1
      subst ht
      unfold getValue refill fill at hs
      simp [takeByte] at hs
      rw [← hs] at hf; cases hf
  | [a] =>
    have ha := a.isLt
    obtain ⟨t1, o1, h1, ho1, e1⟩ := getValue_two (off := off) (by omega) (by omega) h
    obtain ⟨s, hs, hf⟩ := getValue_stop (off := o1)
      (bits := (a.toNat * 16 / 64 * 64 + a.toNat * 16 % 64) % 2 ^ 4) (nb := 4) (by omega)
      (.inr ⟨_, h1⟩)
    refine ⟨s, ?_, ?_⟩
    · have hv : BitVec.ofNat 8 ((a.toNat * 16 / 64 * 64 + a.toNat * 16 % 64) / 2 ^ 4) = a := by
        apply BitVec.eq_of_toNat_eq
        rw [BitVec.toNat_ofNat]; omega
      rw [hv] at e1
      exact values_cons e1 (values_nil hs)
    · intro e
      rcases hf with hf | ⟨hf, hf'⟩
      · simp [checkPadding, hf]
      · obtain ⟨h3, h4⟩ := hf' _ h1 e
        have hm : t1 = [pad, pad] := by
          have := h1.1
          rw [List.filter_eq_self.mpr (by intro b hb; simp [h1.2 e b hb])] at this
          exact this
        unfold checkPadding
        rw [hf, if_pos rfl, h3, h4, hm, ho1 e]
        rw [show (off + 2) % 4 = 2 by have := ho e; omega]
        decide
  | [a, b] =>
    have ha := a.isLt
    have hb := b.isLt
    obtain ⟨t1, o1, h1, ho1, e1⟩ := getValue_two (off := off) (by omega) (by omega) h
    obtain ⟨t2, o2, h2, ho2, e2⟩ := getValue_one (off := o1) (nb := 4) (by omega)
      (bits := ((a.toNat * 256 + b.toNat) * 4 / 4096 * 64 + (a.toNat * 256 + b.toNat) * 4 / 64 % 64) % 2 ^ 4)
      (by omega) (by omega) (by omega) h1
    obtain ⟨s, hs, hf⟩ := getValue_stop (off := o2)
      (bits := ((((a.toNat * 256 + b.toNat) * 4 / 4096 * 64
        + (a.toNat * 256 + b.toNat) * 4 / 64 % 64) % 2 ^ 4) * 64
        + (a.toNat * 256 + b.toNat) * 4 % 64) % 2 ^ (4 - 2)) (nb := 4 - 2) (by omega)
      (.inr ⟨_, h2⟩)
    refine ⟨s, ?_, ?_⟩
    · have hv : BitVec.ofNat 8 (((a.toNat * 256 + b.toNat) * 4 / 4096 * 64
          + (a.toNat * 256 + b.toNat) * 4 / 64 % 64) / 2 ^ 4) = a := by
        apply BitVec.eq_of_toNat_eq
        rw [BitVec.toNat_ofNat]; omega
      have hw : BitVec.ofNat 8 (((((a.toNat * 256 + b.toNat) * 4 / 4096 * 64
          + (a.toNat * 256 + b.toNat) * 4 / 64 % 64) % 2 ^ 4) * 64
          + (a.toNat * 256 + b.toNat) * 4 % 64) / 2 ^ (4 - 2)) = b := by
        apply BitVec.eq_of_toNat_eq
        rw [BitVec.toNat_ofNat]; omega
      rw [hv] at e1
      rw [hw] at e2
      exact values_cons e1 (values_cons e2 (values_nil hs))
    · intro e
      rcases hf with hf | ⟨hf, hf'⟩
      · simp [checkPadding, hf]
      · obtain ⟨h3, h4⟩ := hf' _ h2 e
        have hm : t2 = [pad] := by
          have := h2.1
          rw [List.filter_eq_self.mpr (by intro b hb; simp [h2.2 e b hb])] at this
          exact this
        unfold checkPadding
        rw [hf, if_pos rfl, h3, h4, hm, ho2 e, ho1 e]
        rw [show (off + 2 + 1) % 4 = 3 by have := ho e; omega]
        decide
  | a :: b :: c :: rest =>
    have ha := a.isLt
    have hb := b.isLt
    have hc := c.isLt
    rw [encode] at h
    generalize hn : (a.toNat * 256 + b.toNat) * 256 + c.toNat = n at h
    have hn' : n < 2 ^ 24 := by omega
    obtain ⟨t1, o1, h1, ho1, e1⟩ := getValue_two (off := off) (by omega) (by omega) h
    obtain ⟨t2, o2, h2, ho2, e2⟩ := getValue_one (off := o1) (nb := 4) (by omega)
      (bits := (n / 262144 * 64 + n / 4096 % 64) % 2 ^ 4) (by omega) (by omega) (by omega) h1
    obtain ⟨t3, o3, h3, ho3, e3⟩ := getValue_one (off := o2) (nb := 4 - 2) (by omega)
      (bits := ((n / 262144 * 64 + n / 4096 % 64) % 2 ^ 4 * 64 + n / 64 % 64) % 2 ^ (4 - 2))
      (by omega) (by omega) (by omega) h2
    have hz : (((n / 262144 * 64 + n / 4096 % 64) % 2 ^ 4 * 64 + n / 64 % 64) % 2 ^ (4 - 2) * 64
        + n % 64) % 2 ^ (4 - 2 - 2) = 0 := by omega
    rw [hz] at e3
    obtain ⟨s, hs, hp⟩ := values_encode skip rest t3 o3
      (fun e => by rw [ho3 e, ho2 e, ho1 e]; have := ho e; omega) h3
    refine ⟨s, ?_, hp⟩
    have hv1 : BitVec.ofNat 8 ((n / 262144 * 64 + n / 4096 % 64) / 2 ^ 4) = a := by
      apply BitVec.eq_of_toNat_eq
      rw [BitVec.toNat_ofNat]; omega
    have hv2 : BitVec.ofNat 8 (((n / 262144 * 64 + n / 4096 % 64) % 2 ^ 4 * 64 + n / 64 % 64)
        / 2 ^ (4 - 2)) = b := by
      apply BitVec.eq_of_toNat_eq
      rw [BitVec.toNat_ofNat]; omega
    have hv3 : BitVec.ofNat 8 ((((n / 262144 * 64 + n / 4096 % 64) % 2 ^ 4 * 64 + n / 64 % 64)
        % 2 ^ (4 - 2) * 64 + n % 64) / 2 ^ (4 - 2 - 2)) = c := by
      apply BitVec.eq_of_toNat_eq
      rw [BitVec.toNat_ofNat]; omega
    rw [hv1] at e1
    rw [hv2] at e2
    rw [hv3] at e3
    exact values_cons e1 (values_cons e2 (values_cons e3 hs))
termination_by bytes.length

theorem decodeLoop_values {s : State} {vs t} (h : values s = .ok (vs, t)) (data : List Byte)
    (off : Nat) (ho : off + vs.length ≤ data.length) :
    decodeLoop s data off
      = .ok (off + vs.length, data.take off ++ vs ++ data.drop (off + vs.length), t) := by
  induction vs generalizing s data off with
  | nil =>
    unfold values at h
    split at h
    · cases h
    · cases h
    · rename_i e
      cases h
      unfold decodeLoop
      split
      · rename_i e'; rw [e] at e'; cases e'
      · rename_i e'; rw [e] at e'; cases e'
      · rename_i e'; rw [e] at e'; cases e'; simp
      · rename_i e'; rw [e] at e'; cases e'
    · split at h <;> cases h
  | cons v vs ih =>
    simp only [List.length_cons] at ho
    unfold values at h
    split at h
    · cases h
    · cases h
    · cases h
    · rename_i v' s' e
      split at h
      · rename_i hv
        cases h
        unfold decodeLoop
        split
        · rename_i e'; rw [e] at e'; cases e'
        · rename_i e'; rw [e] at e'; cases e'
        · rename_i e'; rw [e] at e'; cases e'
        · rename_i e'; rw [e] at e'; cases e'
          rw [if_pos (by omega), ih hv _ _ (by simp; omega)]
          simp only [List.length_cons, R.ok.injEq, Prod.mk.injEq, and_true]
          refine ⟨by omega, ?_⟩
          rw [List.take_set, List.drop_set_of_lt (by omega), List.take_add_one,
            List.getElem?_eq_getElem (by omega)]
          rw [show off + 1 + vs.length = off + (vs.length + 1) by omega]
          have hl : (List.take off data).length = off := by simp; omega
          rw [List.set_append_right _ _ (by omega), hl]
          simp
      · cases h
      · cases h

theorem encode_no_space (bytes : List Byte) : ∀ b ∈ encode bytes, isSpace b = false := by
  have hp : isSpace pad = false := by decide
  match bytes with
  | [] => simp [encode]
  | [a] =>
    have := a.isLt
    intro b hb
    simp only [encode, List.mem_cons, List.not_mem_nil, or_false] at hb
    rcases hb with rfl | rfl | rfl | rfl
    · exact isSpace_char _ (by omega)
    · exact isSpace_char _ (by omega)
    · exact hp
    · exact hp
  | [a, c] =>
    have := a.isLt
    have := c.isLt
    intro b hb
    simp only [encode, List.mem_cons, List.not_mem_nil, or_false] at hb
    rcases hb with rfl | rfl | rfl | rfl
    · exact isSpace_char _ (by omega)
    · exact isSpace_char _ (by omega)
    · exact isSpace_char _ (by omega)
    · exact hp
  | a :: c :: d :: rest =>
    have := a.isLt
    have := c.isLt
    have := d.isLt
    intro b hb
    simp only [encode, List.mem_cons] at hb
    rcases hb with rfl | rfl | rfl | rfl | hb
    · exact isSpace_char _ (by omega)
    · exact isSpace_char _ (by omega)
    · exact isSpace_char _ (by omega)
    · exact isSpace_char _ (by omega)
    · exact encode_no_space rest b hb
termination_by bytes.length

/-- C17. Decoding the base64 encoding of any byte string into any buffer that can hold it succeeds,
reports its length, stores the bytes at the start of the buffer and leaves the rest alone. -/
theorem C17_decode_encode (bytes buffer : List Byte) (h : bytes.length ≤ buffer.length) :
    decode (encode bytes) buffer = .ok (bytes.length, bytes ++ buffer.drop bytes.length) := by
  have hns := encode_no_space bytes
  have hr : Reads false (encode bytes) (encode bytes) :=
    ⟨List.filter_eq_self.mpr (fun b hb => by simp [hns b hb]), fun _ => hns⟩
  obtain ⟨t, ht, hp⟩ := values_encode false bytes (encode bytes) 0 (by simp) hr
  unfold decode State.new
  rw [decodeLoop_values ht buffer 0 (by omega), R.ok_bind]
  simp only [hp rfl, R.ok_bind, R.pure_eq]
  simp

/-- C17. A stream that skips white space reads the bytes from any text that is the encoding with
white space inserted anywhere. -/
theorem C17_stream_skips_white_space (bytes text : List Byte)
    (h : text.filter (! isSpace ·) = encode bytes) :
    ∃ t, values (State.new text true) = .ok (bytes, t) := by
  obtain ⟨t, ht, _⟩ := values_encode true bytes text 0 (by simp) ⟨h, by simp⟩
  exact ⟨t, ht⟩

theorem getValue_ne_panic (s : State) : getValue s ≠ .panic := by
  have hf : ∀ skip rest off bits nb, fill skip rest off bits nb ≠ .panic := by
    intro skip rest
    induction rest with
    | nil => intro off bits nb h; unfold fill at h; split at h <;> cases h
    | cons b rest ih =>
      intro off bits nb h
      unfold fill at h
      split at h
      · simp only at h
        split at h
        · exact ih _ _ _ h
        · cases h
        · split at h
          · exact ih _ _ _ h
          · cases h
        · cases h
      · cases h
  unfold getValue
  intro h
  rw [R.bind_eq_panic] at h
  rcases h with h | ⟨_, _, h⟩
  · unfold refill at h
    split at h
    · cases h
    · exact hf _ _ _ _ _ h
  · cases h

theorem getValue_measure8 {s s' : State} {v} (h : getValue s = .ok (some v, s')) :
    s'.rest.length * 6 + s'.nb + 8 ≤ s.rest.length * 6 + s.nb := by
  unfold getValue at h
  rw [R.bind_eq_ok] at h
  obtain ⟨t, ht, h⟩ := h
  have hm : t.rest.length * 6 + t.nb ≤ s.rest.length * 6 + s.nb := by
    unfold refill at ht
    split at ht
    · cases ht; exact Nat.le_refl _
    · exact fill_measure ht
  simp only [takeByte, R.pure_eq, R.ok.injEq] at h
  split at h
  · cases h
  · cases h; simp only; omega

/-- C17. On arbitrary input the decoder never writes outside a buffer of three quarters of the
input size: it succeeds or returns an error. -/
theorem C17_no_panic (encoded buffer : List Byte) (h : encoded.length * 3 ≤ buffer.length * 4) :
    decode encoded buffer ≠ .panic := by
  have hl : ∀ m s data off, s.rest.length * 6 + s.nb = m →
      s.rest.length * 6 + s.nb + 8 * off ≤ 8 * data.length →
      decodeLoop s data off ≠ .panic := by
    intro m
    induction m using Nat.strongRecOn with
    | ind m ih =>
      intro s data off hm hle
      unfold decodeLoop
      split
      · simp
      · rename_i e; exact absurd e (getValue_ne_panic s)
      · simp
      · rename_i v s' e
        have := getValue_measure8 e
        rw [if_pos (by omega)]
        exact ih _ (by omega) s' _ _ rfl (by simp; omega)
  unfold decode
  intro hp
  rw [R.bind_eq_panic] at hp
  rcases hp with hp | ⟨⟨size, out, s⟩, _, hp⟩
  · exact hl _ _ _ _ rfl (by simp [State.new]; omega) hp
  · simp only [R.bind_eq_panic, R.pure_eq] at hp
    rcases hp with hp | ⟨_, _, hp⟩
    · unfold checkPadding at hp
      dsimp only at hp
      repeat' split at hp
      all_goals cases hp
    · cases hp

theorem kind_isChar (b : Byte) : kind b = if isChar b then .sixtet (value b) else if b = pad then .padding else if isSpace b then .space else .invalid := by
  obtain ⟨n, hn⟩ : ∃ n : Fin 256, b = BitVec.ofNat 8 n.1 := ⟨⟨b.toNat, b.isLt⟩, by simp⟩
  subst hn
  revert n; decide +kernel

theorem value_lt {b : Byte} (h : isChar b = true) : value b < 64 := by
  obtain ⟨n, hn⟩ : ∃ n : Fin 256, b = BitVec.ofNat 8 n.1 := ⟨⟨b.toNat, b.isLt⟩, by simp⟩
  subst hn
  revert n; decide +kernel

theorem values_eq (s : State) : values s = match getValue s with
    | .err => .err
    | .panic => .panic
    | .ok (none, s') => .ok ([], s')
    | .ok (some v, s') => match values s' with
      | .ok (vs, t) => .ok (v :: vs, t)
      | .err => .err
      | .panic => .panic := by
  rw [values]
  split <;> rename_i e <;> simp only [e]
  cases values _ <;> rfl

theorem fill_step {c : Byte} (hc : isChar c = true) {rest : List Byte} {off bits nb : Nat} (hb : bits < 2 ^ 26) (hnb : nb < 8) :
    fill false (c :: rest) off bits nb = fill false rest (off + 1) (bits * 64 + value c) (nb + 6) := by
  conv_lhs => unfold fill
  rw [if_pos hnb]
  simp only [kind_isChar, hc, if_true, shift_in hb (value_lt hc)]

/-- The bytes of bits and characters. -/
def bytesFrom (nb bits : Nat) (cs : List Byte) : List Byte :=
  (List.range ((nb + 6 * cs.length) / 8)).map fun i =>
    BitVec.ofNat 8 (cs.foldl (fun n c => n * 64 + value c) bits / 2 ^ (nb + 6 * cs.length - 8 * (i + 1)))

theorem fold_eq (cs : List Byte) : ∀ bits, cs.foldl (fun n c => n * 64 + value c) bits = bits * 64 ^ cs.length + number cs := by
  induction cs with
  | nil => intro bits; simp [number]
  | cons c cs ih =>
    intro bits
    unfold number
    rw [List.foldl_cons, List.foldl_cons, ih, ih (0 * 64 + value c), List.length_cons, Nat.pow_succ]
    ring

theorem number_lt (cs : List Byte) (h : ∀ c ∈ cs, isChar c = true) : number cs < 64 ^ cs.length := by
  induction cs with
  | nil => simp [number]
  | cons c cs ih =>
    have := ih (fun x hx => h x (List.mem_cons_of_mem _ hx))
    have hv := value_lt (h c List.mem_cons_self)
    unfold number
    rw [List.foldl_cons, fold_eq, Nat.zero_mul, Nat.zero_add, List.length_cons, Nat.pow_succ]
    have : (value c + 1) * 64 ^ cs.length ≤ 64 * 64 ^ cs.length := Nat.mul_le_mul_right _ hv
    rw [Nat.add_mul] at this
    omega

theorem pow64 (n : Nat) : 64 ^ n = 2 ^ (6 * n) := by rw [show (64 : Nat) = 2 ^ 6 from rfl, ← Nat.pow_mul]

theorem bytesFrom_step (nb bits : Nat) (c : Byte) (cs : List Byte) : bytesFrom nb bits (c :: cs) = bytesFrom (nb + 6) (bits * 64 + value c) cs := by
  unfold bytesFrom
  rw [List.length_cons, List.foldl_cons, show nb + 6 * (cs.length + 1) = nb + 6 + 6 * cs.length by omega]

theorem bytesFrom_byte (nb bits : Nat) (c : Byte) (cs : List Byte) (hcs : ∀ x ∈ cs, isChar x = true) (h : 2 ≤ nb) (hnb : nb < 8) :
    bytesFrom nb bits (c :: cs) = BitVec.ofNat 8 ((bits * 64 + value c) / 2 ^ (nb - 2)) :: bytesFrom (nb - 2) ((bits * 64 + value c) % 2 ^ (nb - 2)) cs := by
  unfold bytesFrom
  generalize hw : bits * 64 + value c = w
  have hn := number_lt cs hcs
  rw [List.length_cons, List.foldl_cons, hw, show nb + 6 * (cs.length + 1) = (nb - 2) + 6 * cs.length + 8 by omega,
    show ((nb - 2) + 6 * cs.length + 8) / 8 = ((nb - 2) + 6 * cs.length) / 8 + 1 by omega, List.range_succ_eq_map, List.map_cons, List.map_map]
  congr 1
  · rw [fold_eq, show nb - 2 + 6 * cs.length + 8 - 8 * (0 + 1) = 6 * cs.length + (nb - 2) by omega, pow64, Nat.pow_add, ← Nat.div_div_eq_div_mul,
      Nat.add_comm (w * _), Nat.add_mul_div_right _ _ (Nat.two_pow_pos _)]
    rw [pow64] at hn
    rw [Nat.div_eq_of_lt hn, Nat.zero_add]
  · apply List.map_congr_left
    intro i hi
    have hi := List.mem_range.1 hi
    simp only [Function.comp]
    rw [show nb - 2 + 6 * cs.length + 8 - 8 * (i + 1 + 1) = nb - 2 + 6 * cs.length - 8 * (i + 1) by omega]
    apply BitVec.eq_of_toNat_eq
    rw [BitVec.toNat_ofNat, BitVec.toNat_ofNat, fold_eq, fold_eq]
    generalize hq : nb - 2 = q
    generalize hT : q + 6 * cs.length = T
    have hsplit : w = w / 2 ^ q * 2 ^ q + w % 2 ^ q := by rw [Nat.mul_comm]; exact (Nat.div_add_mod w _).symm
    conv_lhs => rw [hsplit]
    rw [Nat.add_mul, Nat.add_assoc, Nat.mul_assoc, pow64, ← Nat.pow_add, hT]
    rw [show (2 : Nat) ^ T = 2 ^ (8 * i) * 2 ^ 8 * 2 ^ (T - 8 * (i + 1)) by rw [← Nat.pow_add, ← Nat.pow_add]; congr 1; omega, ← Nat.mul_assoc, ← Nat.mul_assoc,
      Nat.add_comm, Nat.add_mul_div_right _ _ (Nat.two_pow_pos _), Nat.add_mul_mod_self_right]

theorem values_chars (rest : List Byte) (cs : List Byte) : ∀ off bits nb, (∀ c ∈ cs, isChar c = true) → bits < 2 ^ nb → nb < 8 → (∀ c ∈ rest.head?, isChar c = false) →
    values ⟨cs ++ rest, off, bits, nb, false, false⟩ =
      if rest = [] ∨ rest.head? = some pad then
        .ok (bytesFrom nb bits cs, ⟨rest, off + cs.length, cs.foldl (fun n c => n * 64 + value c) bits % 2 ^ ((nb + 6 * cs.length) % 8), (nb + 6 * cs.length) % 8, false, decide (rest ≠ [])⟩)
      else .err := by
  induction cs with
  | nil =>
    intro off bits nb _ hb hnb hr
    have hm : bits % 2 ^ nb = bits := Nat.mod_eq_of_lt hb
    rw [List.nil_append, values_eq]
    unfold getValue refill
    simp only [Bool.false_eq_true, if_false]
    unfold fill
    rw [if_pos hnb]
    cases rest with
    | nil =>
      simp only [R.ok_bind, R.pure_eq, takeByte, hnb, if_true, true_or, bytesFrom, List.length_nil, Nat.mul_zero, Nat.add_zero, Nat.div_eq_of_lt hnb, List.range_zero,
        List.map_nil, List.foldl_nil, Nat.mod_eq_of_lt hnb, ne_eq, not_true_eq_false, decide_false]
      rw [hm]
    | cons r rest =>
      simp only [List.head?_cons, Option.mem_def, Option.some.injEq, forall_eq'] at hr
      simp only [kind_isChar, hr, Bool.false_eq_true, if_false, List.head?_cons, Option.some.injEq, reduceCtorEq, false_or]
      by_cases hp : r = pad
      · simp only [hp, if_true, R.ok_bind, R.pure_eq, takeByte, hnb, bytesFrom, List.length_nil, Nat.mul_zero, Nat.add_zero, Nat.div_eq_of_lt hnb, List.range_zero,
          List.map_nil, List.foldl_nil, Nat.mod_eq_of_lt hnb, ne_eq, reduceCtorEq, not_false_eq_true, decide_true]
        rw [hm]
      · simp only [hp, if_false]
        by_cases hs : isSpace r = true
        · simp [hs]
        · simp [hs]
  | cons c cs ih =>
    intro off bits nb hcs hb hnb hr
    have hc := hcs c List.mem_cons_self
    have hcs' : ∀ x ∈ cs, isChar x = true := fun x hx => hcs x (List.mem_cons_of_mem _ hx)
    have hv := value_lt hc
    have hb26 : bits < 2 ^ 26 := Nat.lt_of_lt_of_le hb (Nat.pow_le_pow_right (by omega) (by omega))
    have hw : bits * 64 + value c < 2 ^ (nb + 6) := by
      rw [Nat.pow_add]
      have := Nat.mul_le_mul_right 64 (show bits + 1 ≤ 2 ^ nb from hb)
      omega
    by_cases h8 : nb + 6 < 8
    · have hg : getValue ⟨c :: cs ++ rest, off, bits, nb, false, false⟩ = getValue ⟨cs ++ rest, off + 1, bits * 64 + value c, nb + 6, false, false⟩ := by
        unfold getValue refill
        simp only [Bool.false_eq_true, if_false]
        rw [List.cons_append, fill_step hc hb26 hnb]
      rw [values_eq, hg, ← values_eq, ih (off + 1) (bits * 64 + value c) (nb + 6) hcs' hw h8 hr, bytesFrom_step, List.foldl_cons, List.length_cons,
        show nb + 6 + 6 * cs.length = nb + 6 * (cs.length + 1) by omega, show off + 1 + cs.length = off + (cs.length + 1) by omega]
    · have hg : getValue ⟨c :: cs ++ rest, off, bits, nb, false, false⟩ =
          .ok (some (BitVec.ofNat 8 ((bits * 64 + value c) / 2 ^ (nb - 2))), ⟨cs ++ rest, off + 1, (bits * 64 + value c) % 2 ^ (nb - 2), nb - 2, false, false⟩) := by
        unfold getValue refill
        simp only [Bool.false_eq_true, if_false]
        rw [List.cons_append, fill_step hc hb26 hnb, fill_full h8, R.ok_bind, R.pure_eq, takeByte_eq (by omega) hw (by omega), show nb + 6 - 8 = nb - 2 by omega]
      rw [values_eq, hg]
      simp only
      rw [ih (off + 1) _ (nb - 2) hcs' (Nat.mod_lt _ (Nat.two_pow_pos _)) (by omega) hr]
      by_cases hp : rest = [] ∨ rest.head? = some pad
      · rw [if_pos hp, if_pos hp]
        simp only [R.ok.injEq, Prod.mk.injEq, State.mk.injEq, true_and, and_true]
        refine ⟨(bytesFrom_byte nb bits c cs hcs' (by omega) hnb).symm, by rw [List.length_cons]; omega, ?_, by rw [List.length_cons]; omega⟩
        rw [List.foldl_cons, fold_eq, fold_eq, List.length_cons, show (nb - 2 + 6 * cs.length) % 8 = (nb + 6 * (cs.length + 1)) % 8 by omega, pow64]
        generalize bits * 64 + value c = w
        have hle : (nb + 6 * (cs.length + 1)) % 8 ≤ 6 * cs.length + (nb - 2) := by omega
        conv_rhs => rw [← Nat.div_add_mod w (2 ^ (nb - 2))]
        generalize w % 2 ^ (nb - 2) = y
        rw [Nat.add_mul, Nat.mul_comm (2 ^ (nb - 2)), Nat.mul_assoc, ← Nat.pow_add, Nat.add_assoc]
        obtain ⟨k, hk⟩ : ∃ k, nb - 2 + 6 * cs.length = k + (nb + 6 * (cs.length + 1)) % 8 := ⟨nb - 2 + 6 * cs.length - (nb + 6 * (cs.length + 1)) % 8, by omega⟩
        rw [hk, Nat.pow_add, ← Nat.mul_assoc, Nat.add_comm (_ * _ * _), Nat.add_mul_mod_self_right]
      · rw [if_neg hp, if_neg hp]

theorem decodeLoop_err {s : State} (h : values s = .err) (data : List Byte) (off : Nat) : decodeLoop s data off = .err ∨ decodeLoop s data off = .panic := by
  generalize hm : s.rest.length * 6 + s.nb = m
  induction m using Nat.strongRecOn generalizing s data off with
  | ind m ih =>
    rw [values_eq] at h
    unfold decodeLoop
    split
    · exact .inl rfl
    · exact .inr rfl
    · rename_i e; rw [e] at h; cases h
    · rename_i v s' e
      rw [e] at h
      simp only at h
      split
      · refine ih _ ?_ ?_ _ _ rfl
        · have := getValue_measure e; omega
        · cases hv : values s' with
          | err => rfl
          | ok r => rw [hv] at h; cases h
          | panic => rw [hv] at h; cases h
      · exact .inr rfl

/-- C17. What `decode` makes of any text, with a buffer of three quarters of its size: the characters of the alphabet up to the first other are decoded, and
that must be the end of the text or complete padding. (Padding can be missing altogether, and what follows it is not looked at.) -/
theorem C17_decode_text (cs rest buffer : List Byte) (hcs : ∀ c ∈ cs, isChar c = true) (hrest : ∀ c ∈ rest.head?, isChar c = false)
    (hb : (cs ++ rest).length * 3 ≤ buffer.length * 4) :
    decode (cs ++ rest) buffer =
      if rest = [] ∨ (rest.head? = some pad ∧ rest.take (padding cs.length) = List.replicate (padding cs.length) pad) then
        .ok (6 * cs.length / 8, bytesOf cs ++ buffer.drop (6 * cs.length / 8))
      else .err := by
  have hv := values_chars rest cs 0 0 0 hcs (by simp) (by omega) hrest
  have hbf : bytesFrom 0 0 cs = bytesOf cs := by unfold bytesFrom bytesOf number; simp
  have hlen : (bytesOf cs).length = 6 * cs.length / 8 := by simp [bytesOf]
  rw [hbf] at hv
  by_cases hp : rest = [] ∨ rest.head? = some pad
  · rw [if_pos hp] at hv
    unfold decode State.new
    rw [List.length_append] at hb
    rw [decodeLoop_values hv buffer 0 (by omega), R.ok_bind]
    simp only [List.take_zero, List.nil_append, Nat.zero_add, hlen]
    unfold checkPadding
    simp only
    by_cases hr : rest = []
    · rw [if_pos (Or.inl hr), if_neg (by simp [hr])]
      rfl
    · have hpad := hp.resolve_left hr
      rw [if_pos (by simp [hr])]
      have hpz : (if cs.length % 4 > 0 then 4 - cs.length % 4 else 0) = padding cs.length := by unfold padding; split <;> omega
      rw [hpz]
      have key : ((rest.take (padding cs.length)).all (· == 0x3d#8) = true ∧ padding cs.length ≤ rest.length) ↔ rest.take (padding cs.length) = List.replicate (padding cs.length) pad := by
        rw [List.eq_replicate_iff, List.all_eq_true]
        simp only [List.length_take, beq_iff_eq, pad]
        constructor
        · rintro ⟨h1, h2⟩; exact ⟨by omega, h1⟩
        · rintro ⟨h1, h2⟩; exact ⟨h2, by omega⟩
      by_cases hk : rest.take (padding cs.length) = List.replicate (padding cs.length) pad
      · obtain ⟨k1, k2⟩ := key.2 hk
        rw [if_pos (Or.inr ⟨hpad, hk⟩), if_neg (by omega), if_pos k1]
        rfl
      · have hn : ¬ (rest = [] ∨ (rest.head? = some pad ∧ rest.take (padding cs.length) = List.replicate (padding cs.length) pad)) := by
          rintro (h | h)
          exacts [hr h, hk h.2]
        rw [if_neg hn]
        by_cases hl : padding cs.length > rest.length
        · rw [if_pos hl]; rfl
        · rw [if_neg hl, if_neg (fun h => hk (key.1 ⟨h, by omega⟩))]; rfl
  · rw [if_neg hp] at hv
    rw [if_neg (by rintro (h | h); exacts [hp (Or.inl h), hp (Or.inr h.1)])]
    have hnp := C17_no_panic (cs ++ rest) buffer hb
    unfold decode State.new at hnp ⊢
    rcases decodeLoop_err hv buffer 0 with h | h
    · rw [h]; rfl
    · rw [h] at hnp; exact absurd rfl hnp

/-- `TWE=` is decoded, without its padding as well; `TQ=` and `TQ=A` have not enough padding. -/
example : bytesOf [0x54, 0x57, 0x45] = [0x4d, 0x61] ∧ decode [0x54, 0x57, 0x45, 0x3d] [0, 0, 0] = .ok (2, [0x4d, 0x61, 0]) ∧
    decode [0x54, 0x57, 0x45] [0, 0, 0] = .ok (2, [0x4d, 0x61, 0]) ∧ decode [0x54, 0x51, 0x3d] [0, 0, 0] = .err ∧ decode [0x54, 0x51, 0x3d, 0x41] [0, 0, 0] = .err := by
  have h1 := C17_decode_text [0x54, 0x57, 0x45] [0x3d] [0, 0, 0] (by decide +kernel) (by decide +kernel) (by decide)
  have h2 := C17_decode_text [0x54, 0x57, 0x45] [] [0, 0, 0] (by decide +kernel) (by decide +kernel) (by decide)
  have h3 := C17_decode_text [0x54, 0x51] [0x3d] [0, 0, 0] (by decide +kernel) (by decide +kernel) (by decide)
  have h4 := C17_decode_text [0x54, 0x51] [0x3d, 0x41] [0, 0, 0] (by decide +kernel) (by decide +kernel) (by decide)
  exact ⟨by decide +kernel, h1.trans (by decide +kernel), h2.trans (by decide +kernel), h3.trans (by decide +kernel), h4.trans (by decide +kernel)⟩

example : encode [0x4d, 0x61, 0x6e, 0x00] = [0x54, 0x57, 0x46, 0x75, 0x41, 0x41, 0x3d, 0x3d] := by
  decide +kernel
example : ([0x0a#8, 0x54, 0x20, 0x51, 0x3d, 0x0d, 0x3d].filter (! isSpace ·)) = encode [0x4d] := by
  decide +kernel

end Keramics.Props
