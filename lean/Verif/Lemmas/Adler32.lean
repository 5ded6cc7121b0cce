import Verif.Model.Adler32
import Verif.Spec.Adler32
import Mathlib.Tactic.Ring
import Mathlib.Tactic.Linarith

namespace Keramics.Adler32
open Keramics.Spec

theorem split_toNat (c : BitVec 32) :
    (c &&& 0x0000ffff#32).toNat = c.toNat % 65536 ∧ (c >>> 16).toNat = c.toNat / 65536 := by
  constructor
  · rw [BitVec.toNat_and]
    have : (0x0000ffff#32).toNat = 2 ^ 16 - 1 := by decide
    rw [this, Nat.and_two_pow_sub_one_eq_mod]
  · rw [BitVec.toNat_ushiftRight, Nat.shiftRight_eq_div_pow]

theorem add32_ok {a b : BitVec 32} (h : a.toNat + b.toNat < 2 ^ 32) :
    ∃ r, add32 a b = .ok r ∧ r.toNat = a.toNat + b.toNat :=
  ⟨a + b, if_pos h, by rw [BitVec.toNat_add, Nat.mod_eq_of_lt h]⟩

theorem sub32_ok {a b : BitVec 32} (h : b.toNat ≤ a.toNat) :
    ∃ r, sub32 a b = .ok r ∧ r.toNat = a.toNat - b.toNat :=
  ⟨a - b, if_pos h, by rw [BitVec.toNat_sub]; have := a.isLt; have := b.isLt; omega⟩

theorem foldHigh_toNat (v : BitVec 32) :
    ∃ r, foldHigh v = .ok r ∧ r.toNat = v.toNat % 65536 + 15 * (v.toNat / 65536) := by
  have hv := v.isLt
  obtain ⟨h1, h2⟩ := split_toNat v
  have h3 : ((v >>> 16) <<< 4).toNat = 16 * (v.toNat / 65536) := by
    rw [BitVec.toNat_shiftLeft, h2, Nat.shiftLeft_eq]
    rw [Nat.mod_eq_of_lt]
    · ring
    · omega
  obtain ⟨d, hd, hd'⟩ := sub32_ok (a := (v >>> 16) <<< 4) (b := v >>> 16) (by omega)
  obtain ⟨r, hr, hr'⟩ := add32_ok (a := v &&& 0x0000ffff#32) (b := d) (by omega)
  exact ⟨r, by simp only [foldHigh, hd, R.ok_bind, hr], by omega⟩

theorem mod65521_toNat (v : BitVec 32) :
    ∃ r, mod65521 v = .ok r ∧ r.toNat = v.toNat % 65521 := by
  have hv := v.isLt
  obtain ⟨a, ha, ha'⟩ := foldHigh_toNat v
  obtain ⟨b, hb, hb'⟩ := foldHigh_toNat a
  have e : (65521#32).toNat = 65521 := by decide
  unfold mod65521
  simp only [ha, R.ok_bind]
  by_cases c1 : a.toNat > 65521
  · simp only [c1, if_true, hb, R.ok_bind]
    by_cases c2 : b.toNat ≥ 65521
    · obtain ⟨r, hr, hr'⟩ := sub32_ok (a := b) (b := 65521#32) (by omega)
      simp only [c2, if_true]; exact ⟨r, hr, by omega⟩
    · simp only [c2, if_false]; exact ⟨b, rfl, by omega⟩
  · simp only [c1, if_false, R.pure_eq, R.ok_bind]
    by_cases c2 : a.toNat ≥ 65521
    · obtain ⟨r, hr, hr'⟩ := sub32_ok (a := a) (b := 65521#32) (by omega)
      simp only [c2, if_true]; exact ⟨r, hr, by omega⟩
    · simp only [c2, if_false]; exact ⟨a, rfl, by omega⟩

/-- One unreduced step over `Nat`. -/
def stepN (p : Nat × Nat) (b : Nat) : Nat × Nat := (p.1 + b, p.2 + (p.1 + b))

theorem foldl_step (bs : List Byte) (l u : BitVec 32)
    (hl : l.toNat + 255 * bs.length < 2 ^ 32)
    (hu : 2 * u.toNat + 2 * bs.length * l.toNat + 255 * (bs.length * (bs.length + 1)) < 2 ^ 33) :
    ((bs.foldl step (l, u)).1.toNat, (bs.foldl step (l, u)).2.toNat)
      = (bs.map BitVec.toNat).foldl stepN (l.toNat, u.toNat) := by
  induction bs generalizing l u with
  | nil => rfl
  | cons b bs ih =>
    simp only [List.foldl_cons, List.map_cons, List.length_cons] at *
    have hb := b.isLt
    have e1 : (l + b.setWidth 32).toNat = l.toNat + b.toNat := by
      rw [BitVec.toNat_add, BitVec.toNat_setWidth]; omega
    have hu' : u.toNat + (l.toNat + b.toNat) < 2 ^ 32 := by nlinarith
    have e2 : (u + (l + b.setWidth 32)).toNat = u.toNat + (l.toNat + b.toNat) := by
      rw [BitVec.toNat_add, e1, Nat.mod_eq_of_lt hu']
    have := ih (l + b.setWidth 32) (u + (l + b.setWidth 32)) (by rw [e1]; omega)
      (by rw [e1, e2]; nlinarith)
    rw [show step (l, u) b = (l + b.setWidth 32, u + (l + b.setWidth 32)) from rfl, this, e1, e2]
    rfl

theorem foldl_stepN_mod (bs : List Nat) (l u l' u' : Nat) (h : l % 65521 = l' % 65521)
    (h' : u % 65521 = u' % 65521) (hb : bs ≠ []) :
    (((bs.foldl stepN (l, u)).1 % 65521, (bs.foldl stepN (l, u)).2 % 65521) : Nat × Nat)
      = adlerPair (l', u') bs := by
  induction bs generalizing l u l' u' with
  | nil => exact absurd rfl hb
  | cons b bs ih =>
    rw [List.foldl_cons, adlerPair]
    by_cases hbs : bs = []
    · subst hbs
      simp only [List.foldl_nil, stepN, adlerPair]
      rw [Prod.mk.injEq]
      constructor <;> omega
    · exact ih _ _ _ _ (by omega) (by omega) hbs

theorem adlerPair_append (p : Nat × Nat) (a b : List Nat) :
    adlerPair p (a ++ b) = adlerPair (adlerPair p a) b := by
  induction a generalizing p with
  | nil => rfl
  | cons x xs ih => simp only [List.cons_append, adlerPair]; exact ih _

theorem adlerPair_bound (p : Nat × Nat) (bs : List Nat) (h1 : p.1 < 65536) (h2 : p.2 < 65536) :
    (adlerPair p bs).1 < 65536 ∧ (adlerPair p bs).2 < 65536 := by
  induction bs generalizing p with
  | nil => exact ⟨h1, h2⟩
  | cons x xs ih =>
    simp only [adlerPair]
    apply ih <;> simp only <;> omega

theorem batch_spec (l u : BitVec 32) (bs : List Byte) (hl : l.toNat < 65536) (hu : u.toNat < 65536)
    (hn : bs.length ≤ 5552) (hb : bs ≠ []) :
    ∃ r, batch (l, u) bs = .ok r ∧
      (r.1.toNat, r.2.toNat) = adlerPair (l.toNat, u.toNat) (bs.map BitVec.toNat) := by
  have h := foldl_step bs l u (by omega) (by nlinarith)
  have h2 := foldl_stepN_mod (bs.map BitVec.toNat) l.toNat u.toNat l.toNat u.toNat rfl rfl
    (by simpa using hb)
  rw [← h] at h2
  obtain ⟨a, ha, ha'⟩ := mod65521_toNat (bs.foldl step (l, u)).1
  obtain ⟨b, hb, hb'⟩ := mod65521_toNat (bs.foldl step (l, u)).2
  refine ⟨(a, b), by simp only [batch, ha, hb, R.ok_bind, R.pure_eq], ?_⟩
  rw [← h2]; simp only [ha', hb']

theorem loop_spec (data : List Byte) (l u : BitVec 32) (hl : l.toNat < 65536)
    (hu : u.toNat < 65536) :
    ∃ r, loop (l, u) data = .ok r ∧
      (r.1.toNat, r.2.toNat) = adlerPair (l.toNat, u.toNat) (data.map BitVec.toNat) := by
  induction hn : data.length using Nat.strongRecOn generalizing data l u with
  | ind n ih =>
    rw [loop]
    split
    · rename_i h
      have hne : data.take 5552 ≠ [] := by
        intro h0
        have := congrArg List.length h0
        rw [List.length_take, List.length_nil] at this; omega
      obtain ⟨p, hp, hb⟩ := batch_spec l u (data.take 5552) hl hu (by simp) hne
      have hbd := adlerPair_bound (l.toNat, u.toNat) ((data.take 5552).map BitVec.toNat) hl hu
      rw [← hb] at hbd
      obtain ⟨r, hr, hr'⟩ := ih (data.drop 5552).length (by rw [List.length_drop]; omega)
        (data.drop 5552) p.1 p.2 hbd.1 hbd.2 rfl
      refine ⟨r, by simp only [hp, R.ok_bind]; exact hr, ?_⟩
      rw [hr', hb, ← adlerPair_append, ← List.map_append, List.take_append_drop]
    · split
      · rename_i h1 h2
        exact batch_spec l u data hl hu (by omega) (by intro h; simp [h] at h2)
      · rename_i h1 h2
        have : data = [] := List.length_eq_zero_iff.mp (by omega)
        subst this; exact ⟨_, rfl, rfl⟩

theorem combine_toNat (l u : BitVec 32) (hl : l.toNat < 65536) (hu : u.toNat < 65536) :
    ((u <<< 16) ||| l).toNat = u.toNat * 65536 + l.toNat := by
  have hand : (u <<< 16) &&& l = 0#32 := by
    apply BitVec.eq_of_toNat_eq
    rw [BitVec.toNat_and, BitVec.toNat_shiftLeft, Nat.shiftLeft_eq, Nat.mod_eq_of_lt (by omega)]
    apply Nat.eq_of_testBit_eq
    intro i
    rw [Nat.testBit_and]
    by_cases hi : i < 16
    · rw [Nat.testBit_mul_two_pow]; simp; omega
    · have : l.toNat.testBit i = false := by
        apply Nat.testBit_lt_two_pow
        calc l.toNat < 2 ^ 16 := by omega
          _ ≤ 2 ^ i := Nat.pow_le_pow_right (by omega) (by omega)
      simp [this]
  rw [← BitVec.add_eq_or_of_and_eq_zero _ _ hand, BitVec.toNat_add, BitVec.toNat_shiftLeft,
    Nat.shiftLeft_eq]
  omega

theorem update_spec (c : Ctx) (data : List Byte) :
    ∃ c', c.update data = .ok c' ∧ c'.initialValue = c.initialValue ∧
      c'.checksum.toNat = adler32 c.checksum.toNat (data.map BitVec.toNat) := by
  have hc := c.checksum.isLt
  obtain ⟨h1, h2⟩ := split_toNat c.checksum
  have hl : (c.checksum &&& 0x0000ffff#32).toNat < 65536 := by omega
  have hu : (c.checksum >>> 16).toNat < 65536 := by omega
  obtain ⟨r, hr, hloop⟩ := loop_spec data _ _ hl hu
  have hbd := adlerPair_bound ((c.checksum &&& 0x0000ffff#32).toNat, (c.checksum >>> 16).toNat)
    (data.map BitVec.toNat) hl hu
  rw [← hloop] at hbd
  refine ⟨{ c with checksum := (r.2 <<< 16) ||| r.1 },
    by simp only [Ctx.update, hr, R.ok_bind, R.pure_eq], rfl, ?_⟩
  unfold adler32
  simp only
  rw [combine_toNat _ _ hbd.1 hbd.2, ← h1, ← h2, ← hloop]

theorem adler32_append (s : Nat) (a b : List Nat) (hs : s < 2 ^ 32) :
    adler32 s (a ++ b) = adler32 (adler32 s a) b := by
  unfold adler32
  simp only
  rw [adlerPair_append]
  have hb := adlerPair_bound (s % 65536, s / 65536) a (by simp only; omega) (by simp only; omega)
  generalize adlerPair (s % 65536, s / 65536) a = p at *
  have e1 : (p.2 * 65536 + p.1) % 65536 = p.1 := by omega
  have e2 : (p.2 * 65536 + p.1) / 65536 = p.2 := by omega
  rw [e1, e2]

theorem adler32_nil (s : Nat) : adler32 s [] = s := by
  simp only [adler32, adlerPair]; omega

theorem updates_spec (c : Ctx) (chunks : List (List Byte)) :
    ∃ c', chunks.foldlM Ctx.update c = .ok c' ∧ c'.initialValue = c.initialValue ∧
      c'.checksum.toNat = adler32 c.checksum.toNat (chunks.flatten.map BitVec.toNat) := by
  induction chunks generalizing c with
  | nil => exact ⟨c, rfl, rfl, (adler32_nil _).symm⟩
  | cons x xs ih =>
    obtain ⟨c1, h1, h1', h1''⟩ := update_spec c x
    obtain ⟨c2, h2, h2', h2''⟩ := ih c1
    refine ⟨c2, by rw [List.foldlM_cons, h1]; exact h2, by rw [h2', h1'], ?_⟩
    rw [h2'', h1'', List.flatten_cons, List.map_append, adler32_append _ _ _ c.checksum.isLt]

end Keramics.Adler32
