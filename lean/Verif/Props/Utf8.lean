import Verif.Base.Tactics
import Verif.Model.Utf8
import Verif.Spec.Utf8

/-! Property theorems: UTF-8 (C18). -/

namespace Keramics.Props
open Keramics Keramics.Utf8 Keramics.Spec.Utf8

theorem or_add {a b n : Nat} (h : b < 2 ^ n) : (a <<< n) ||| b = a * 2 ^ n + b := by
  rw [Nat.shiftLeft_eq, Nat.mul_comm, ← Nat.two_pow_add_eq_or_of_lt h]

theorem mask6 (b : Nat) : b &&& 0x3f = b % 64 := Nat.and_two_pow_sub_one_eq_mod b 6
theorem mask5 (b : Nat) : b &&& 0x1f = b % 32 := Nat.and_two_pow_sub_one_eq_mod b 5
theorem mask4 (b : Nat) : b &&& 0x0f = b % 16 := Nat.and_two_pow_sub_one_eq_mod b 4
theorem mask3 (b : Nat) : b &&& 0x07 = b % 8 := Nat.and_two_pow_sub_one_eq_mod b 3

theorem codePoint_eq (b1 b2 b3 b4 : Nat) :
    codePoint b1 b2 b3 b4 =
      if b1 < 0x80 then b1
      else if b1 < 0xe0 then b1 % 32 * 64 + b2 % 64
      else if b1 < 0xf0 then b1 % 16 * 4096 + b2 % 64 * 64 + b3 % 64
      else b1 % 8 * 262144 + b2 % 64 * 4096 + b3 % 64 * 64 + b4 % 64 := by
  unfold codePoint
  simp only [mask6, mask5, mask4, mask3]
  have e6 : ∀ a b, (a <<< 6) ||| (b % 64) = a * 64 + b % 64 := fun a b => or_add (by omega)
  have e12 : ∀ a b c, (a <<< 12) ||| ((b % 64) <<< 6) ||| (c % 64) = a * 4096 + b % 64 * 64 + c % 64 := by
    intro a b c
    rw [Nat.or_assoc, e6, or_add (by omega)]; omega
  have e18 : ∀ a b c d, (a <<< 18) ||| ((b % 64) <<< 12) ||| ((c % 64) <<< 6) ||| (d % 64)
      = a * 262144 + b % 64 * 4096 + c % 64 * 64 + d % 64 := by
    intro a b c d
    rw [Nat.or_assoc, Nat.or_assoc, ← Nat.or_assoc ((b % 64) <<< 12), e12, or_add (by omega)]; omega
  simp only [e6, e12, e18]

theorem more_no {b1 limit bad rest} (h : b1 < limit) : more b1 limit bad rest = .ok (0, rest) := by
  unfold more; rw [if_neg (by omega)]

theorem more_yes {b1 limit bad b rest} (h : limit ≤ b1) (hb : bad b.toNat = false) :
    more b1 limit bad (b :: rest) = .ok (b.toNat, rest) := by
  unfold more; rw [if_pos h]; simp [hb]

theorem next_encode (c : Nat) (h : isScalar c) (rest : List Byte) :
    next (encode c ++ rest) = some (.ok (c, rest)) := by
  unfold isScalar at h
  unfold encode
  by_cases c1 : c < 0x80
  · rw [if_pos c1]
    simp only [List.map_cons, List.map_nil, List.cons_append, List.nil_append, next, decodeFrom]
    have hn : (BitVec.ofNat 8 c).toNat = c := by rw [BitVec.toNat_ofNat]; omega
    simp only [hn]
    rw [if_neg (by omega), more_no (by omega), R.ok_bind, more_no (by omega), R.ok_bind,
      more_no (by omega), R.ok_bind, codePoint_eq, if_pos c1]
    rfl
  rw [if_neg c1]
  by_cases c2 : c < 0x800
  · rw [if_pos c2]
    simp only [List.map_cons, List.map_nil, List.cons_append, List.nil_append, next, decodeFrom]
    have hn : (BitVec.ofNat 8 (0xc0 + c / 64)).toNat = 0xc0 + c / 64 := by
      rw [BitVec.toNat_ofNat]; omega
    have hm : (BitVec.ofNat 8 (0x80 + c % 64)).toNat = 0x80 + c % 64 := by
      rw [BitVec.toNat_ofNat]; omega
    simp only [hn]
    rw [if_neg (by omega), more_yes (by omega) ?_, R.ok_bind, more_no (by omega), R.ok_bind,
      more_no (by omega), R.ok_bind, codePoint_eq, if_neg (by omega), if_pos (by omega), hm]
    · simp only [R.pure_eq, Option.some.injEq, R.ok.injEq, Prod.mk.injEq, and_true]; omega
    · rw [hm]; unfold bad2
      repeat' split
      all_goals simp; omega
  rw [if_neg c2]
  by_cases c3 : c < 0x10000
  · rw [if_pos c3]
    simp only [List.map_cons, List.map_nil, List.cons_append, List.nil_append, next, decodeFrom]
    have hn : (BitVec.ofNat 8 (0xe0 + c / 4096)).toNat = 0xe0 + c / 4096 := by
      rw [BitVec.toNat_ofNat]; omega
    have hm : (BitVec.ofNat 8 (0x80 + c / 64 % 64)).toNat = 0x80 + c / 64 % 64 := by
      rw [BitVec.toNat_ofNat]; omega
    have hl : (BitVec.ofNat 8 (0x80 + c % 64)).toNat = 0x80 + c % 64 := by
      rw [BitVec.toNat_ofNat]; omega
    simp only [hn]
    rw [if_neg (by omega), more_yes (by omega) ?_, R.ok_bind, more_yes (by omega) ?_, R.ok_bind,
      more_no (by omega), R.ok_bind, codePoint_eq, if_neg (by omega), if_neg (by omega),
      if_pos (by omega), hm, hl]
    · simp only [R.pure_eq, Option.some.injEq, R.ok.injEq, Prod.mk.injEq, and_true]; omega
    · rw [hm, hl]; unfold bad3
      repeat' split
      all_goals simp; omega
    · rw [hm]; unfold bad2
      repeat' split
      all_goals simp; omega
  rw [if_neg c3]
  simp only [List.map_cons, List.map_nil, List.cons_append, List.nil_append, next, decodeFrom]
  have hn : (BitVec.ofNat 8 (0xf0 + c / 262144)).toNat = 0xf0 + c / 262144 := by
    rw [BitVec.toNat_ofNat]; omega
  have hm : (BitVec.ofNat 8 (0x80 + c / 4096 % 64)).toNat = 0x80 + c / 4096 % 64 := by
    rw [BitVec.toNat_ofNat]; omega
  have hk : (BitVec.ofNat 8 (0x80 + c / 64 % 64)).toNat = 0x80 + c / 64 % 64 := by
    rw [BitVec.toNat_ofNat]; omega
  have hl : (BitVec.ofNat 8 (0x80 + c % 64)).toNat = 0x80 + c % 64 := by
    rw [BitVec.toNat_ofNat]; omega
  simp only [hn]
  rw [if_neg (by omega), more_yes (by omega) ?_, R.ok_bind, more_yes (by omega) ?_, R.ok_bind,
    more_yes (by omega) ?_, R.ok_bind, codePoint_eq, if_neg (by omega), if_neg (by omega),
    if_neg (by omega), hm, hk, hl]
  · simp only [R.pure_eq, Option.some.injEq, R.ok.injEq, Prod.mk.injEq, and_true]; omega
  · rw [hl]; unfold bad4; simp; omega
  · rw [hm, hk]; unfold bad3
    repeat' split
    all_goals simp; omega
  · rw [hm]; unfold bad2
    repeat' split
    all_goals simp; omega

theorem decodeAll_cons {bytes c rest cs} (h : next bytes = some (.ok (c, rest)))
    (h' : decodeAll rest = .ok cs) : decodeAll bytes = .ok (c :: cs) := by
  unfold decodeAll
  split
  · rename_i e; rw [h] at e; cases e
  · rename_i e; rw [h] at e; cases e
  · rename_i e; rw [h] at e; cases e
  · rename_i e; rw [h] at e; cases e; rw [h']

/-- C18. Decoding the UTF-8 encoding of any sequence of Unicode scalar values yields it. -/
theorem C18_decode_encode (cs : List Nat) (h : ∀ c ∈ cs, isScalar c) :
    decodeAll (cs.flatMap encode) = .ok cs := by
  induction cs with
  | nil => rw [List.flatMap_nil]; unfold decodeAll; simp [next]
  | cons c cs ih =>
    rw [List.flatMap_cons]
    exact decodeAll_cons (next_encode c (h c List.mem_cons_self) _)
      (ih fun x hx => h x (List.mem_cons_of_mem _ hx))

/-- C18 is false of the code as stated: an overlong encoding and a value above U+10FFFF are
accepted. -/
theorem C18_violated :
    decodeAll [0xc0, 0x80] = .ok [0] ∧ [0xc0, 0x80] ≠ encode 0 ∧
    decodeAll [0xf4, 0x90, 0x80, 0x80] = .ok [0x110000] ∧ ¬ isScalar 0x110000 := by
  have h1 : next [0xc0, 0x80] = some (.ok (0, [])) := by decide +kernel
  have h2 : next [0xf4, 0x90, 0x80, 0x80] = some (.ok (0x110000, [])) := by decide +kernel
  have h0 : decodeAll [] = .ok [] := by unfold decodeAll; simp [next]
  exact ⟨decodeAll_cons h1 h0, by decide +kernel, decodeAll_cons h2 h0, by unfold isScalar; omega⟩

theorem more_some {b1 limit bad rest v rest'} (h : more b1 limit bad rest = .ok (v, rest')) :
    (b1 < limit ∧ v = 0 ∧ rest' = rest) ∨
      (limit ≤ b1 ∧ ∃ b : Byte, rest = b :: rest' ∧ v = b.toNat ∧ bad b.toNat = false) := by
  unfold more at h
  split at h
  · split at h
    · cases h
    · rename_i b r
      split at h
      · cases h
      · rename_i hb; cases h; exact .inr ⟨by assumption, _, rfl, rfl, by simpa using hb⟩
  · cases h; exact .inl ⟨by omega, rfl, rfl⟩

theorem byte_eq (b : Byte) (n : Nat) (h : b.toNat = n) : b = BitVec.ofNat 8 n := by
  rw [← h]; simp

theorem next_sound {b : Byte} {rest c rest'} (h : decodeFrom b rest = .ok (c, rest'))
    (h0 : b.toNat ≠ 0xc0) (h1 : b.toNat ≠ 0xc1)
    (hc : b.toNat = 0xf4 → ∀ y ∈ rest.head?, y.toNat < 0x90) :
    isScalar c ∧ b :: rest = encode c ++ rest' := by
  unfold decodeFrom at h
  dsimp only at h
  split at h
  · cases h
  rename_i hne
  simp only [R.bind_eq_ok, R.pure_eq] at h
  obtain ⟨⟨b2, r2⟩, h2, ⟨b3, r3⟩, h3, ⟨b4, r4⟩, h4, h5⟩ := h
  simp only [R.ok.injEq, Prod.mk.injEq] at h5
  obtain ⟨h5, rfl⟩ := h5
  simp only at h2 h3 h4 h5
  rw [codePoint_eq] at h5
  have hb := b.isLt
  unfold isScalar
  rcases more_some h2 with ⟨l2, rfl, rfl⟩ | ⟨l2, y2, rfl, rfl, g2⟩
  · -- one byte
    rcases more_some h3 with ⟨l3, rfl, rfl⟩ | ⟨l3, _⟩
    · rcases more_some h4 with ⟨l4, rfl, rfl⟩ | ⟨l4, _⟩
      · rw [if_pos (by omega)] at h5
        refine ⟨by omega, ?_⟩
        unfold encode
        rw [if_pos (by omega)]
        simp [byte_eq b c h5]
      · omega
    · omega
  · have hy2 := y2.isLt
    have g2' : 0x80 ≤ y2.toNat ∧ y2.toNat ≤ 0xbf ∧ (b.toNat = 0xe0 → 0xa0 ≤ y2.toNat)
        ∧ (b.toNat = 0xed → y2.toNat ≤ 0x9f) ∧ (b.toNat = 0xf0 → 0x90 ≤ y2.toNat) := by
      unfold bad2 at g2
      split at g2
      · simp at g2; omega
      split at g2
      · simp at g2; omega
      split at g2
      · simp at g2; omega
      · simp at g2; omega
    rcases more_some h3 with ⟨l3, rfl, rfl⟩ | ⟨l3, y3, rfl, rfl, g3⟩
    · rcases more_some h4 with ⟨l4, rfl, rfl⟩ | ⟨l4, _⟩
      · rw [if_neg (by omega), if_pos (by omega)] at h5
        refine ⟨by omega, ?_⟩
        unfold encode
        rw [if_neg (by omega), if_pos (by omega)]
        simp only [List.map_cons, List.map_nil, List.cons_append, List.nil_append]
        rw [← byte_eq b _ (by omega), ← byte_eq y2 _ (by omega)]
      · omega
    · have hy3 := y3.isLt
      have g3' : 0x80 ≤ y3.toNat ∧ y3.toNat ≤ 0xbf := by
        unfold bad3 at g3
        split at g3
        · simp at g3; omega
        split at g3
        · simp at g3; omega
        · simp at g3; omega
      rcases more_some h4 with ⟨l4, rfl, rfl⟩ | ⟨l4, y4, rfl, rfl, g4⟩
      · rw [if_neg (by omega), if_neg (by omega), if_pos (by omega)] at h5
        refine ⟨by omega, ?_⟩
        unfold encode
        rw [if_neg (by omega), if_neg (by omega), if_pos (by omega)]
        simp only [List.map_cons, List.map_nil, List.cons_append, List.nil_append]
        rw [← byte_eq b _ (by omega), ← byte_eq y2 _ (by omega), ← byte_eq y3 _ (by omega)]
      · have hy4 := y4.isLt
        have g4' : 0x80 ≤ y4.toNat ∧ y4.toNat ≤ 0xbf := by
          unfold bad4 at g4; simp at g4; omega
        have hc' : b.toNat = 0xf4 → y2.toNat < 0x90 := fun e => hc e y2 (by simp)
        rw [if_neg (by omega), if_neg (by omega), if_neg (by omega)] at h5
        refine ⟨by omega, ?_⟩
        unfold encode
        rw [if_neg (by omega), if_neg (by omega), if_neg (by omega)]
        simp only [List.map_cons, List.map_nil, List.cons_append, List.nil_append]
        rw [← byte_eq b _ (by omega), ← byte_eq y2 _ (by omega), ← byte_eq y3 _ (by omega),
          ← byte_eq y4 _ (by omega)]

/-- C18, ill-formed input: if a byte string without the bytes 0xc0 and 0xc1, and where no 0xf4 is
followed by a byte of 0x90 or more, is accepted, then it is the UTF-8 encoding of the result and the
result consists of scalar values (so no overlong form, surrogate, value above U+10FFFF or truncated
sequence is accepted).
Missing: the bytes 0xc0/0xc1 and 0xf4 followed by 0x90 or more are accepted by the code, see
`C18_violated`. -/
theorem C18_accepts_only_well_formed_partial (bytes : List Byte) (cs : List Nat)
    (h : decodeAll bytes = .ok cs) (h0 : 0xc0#8 ∉ bytes) (h1 : 0xc1#8 ∉ bytes)
    (hc : ∀ before y after, bytes = before ++ 0xf4#8 :: y :: after → y.toNat < 0x90) :
    (∀ c ∈ cs, isScalar c) ∧ bytes = cs.flatMap encode := by
  induction cs generalizing bytes with
  | nil =>
    unfold decodeAll at h
    split at h
    · rename_i e
      cases bytes with
      | nil => simp
      | cons b r => simp [next] at e
    · cases h
    · cases h
    · split at h <;> cases h
  | cons c cs ih =>
    unfold decodeAll at h
    split at h
    · cases h
    · cases h
    · cases h
    · rename_i c' rest e
      split at h
      · rename_i cs' hr
        cases h
        cases bytes with
        | nil => simp [next] at e
        | cons b r =>
          simp only [next, Option.some.injEq] at e
          obtain ⟨hs, he⟩ := next_sound e
            (fun hb => h0 (by rw [byte_eq b _ hb]; exact List.mem_cons_self))
            (fun hb => h1 (by rw [byte_eq b _ hb]; exact List.mem_cons_self))
            (fun hb y hy => by
              cases r with
              | nil => simp at hy
              | cons z r =>
                simp only [List.head?_cons, Option.mem_def, Option.some.injEq] at hy
                subst hy
                exact hc [] z r (by rw [byte_eq b _ hb]; rfl))
          obtain ⟨i1, i2⟩ := ih rest hr
            (fun hm => h0 (by rw [he]; exact List.mem_append_right _ hm))
            (fun hm => h1 (by rw [he]; exact List.mem_append_right _ hm))
            (fun before y after e' => hc (encode c ++ before) y after (by rw [he, e', List.append_assoc]))
          refine ⟨?_, by rw [he, i2]; simp⟩
          intro x hx
          cases hx with
          | head => exact hs
          | tail _ hx => exact i1 x hx
      · cases h
      · cases h

/-- The bytes of U+20AC are accepted, and meet the conditions. -/
example : decodeAll [0xe2, 0x82, 0xac] = .ok [0x20ac] ∧ 0xc0#8 ∉ [0xe2#8, 0x82#8, 0xac#8] ∧ 0xc1#8 ∉ [0xe2#8, 0x82#8, 0xac#8] ∧
    0xf4#8 ∉ [0xe2#8, 0x82#8, 0xac#8] :=
  ⟨C18_decode_encode [0x20ac] (by simp [isScalar]), by decide, by decide, by decide⟩

example : encode 0x20ac = [0xe2, 0x82, 0xac] ∧ encode 0x1f600 = [0xf0, 0x9f, 0x98, 0x80] := by
  decide +kernel

end Keramics.Props
