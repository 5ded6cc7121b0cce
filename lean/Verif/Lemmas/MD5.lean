import Verif.Lemmas.Hashes
import Verif.Lemmas.Sines

namespace Keramics.Digest
open Keramics.Spec

def toW4 (h : H4) : W4 := ⟨h.h0, h.h1, h.h2, h.h3⟩
def ofW4 (s : W4) : H4 := ⟨s.a, s.b, s.c, s.d⟩

theorem md5Index_get (i : Nat) (hi : i < 64) : R.get md5Index i = .ok (md5X i) := by
  have : ∀ j : Fin 64, R.get md5Index j.1 = .ok (md5X j.1) := by decide +kernel
  exact this ⟨i, hi⟩

theorem md5Shifts_get (i : Nat) (hi : i < 64) :
    R.get md5Shifts i = .ok (md5S (i / 16) (i % 4)) := by
  have : ∀ j : Fin 64, R.get md5Shifts j.1 = .ok (md5S (j.1 / 16) (j.1 % 4)) := by decide +kernel
  exact this ⟨i, hi⟩

theorem md5X_lt (i : Nat) : md5X i < 16 := by
  unfold md5X; split <;> omega

theorem md5F_eq (i : Nat) (hi : i < 64) (x y z : BitVec 32) :
    (if i < 16 then (x &&& y) ||| (~~~ x &&& z)
    else if i < 32 then (x &&& z) ||| (y &&& ~~~ z)
    else if i < 48 then x ^^^ y ^^^ z
    else y ^^^ (x ||| ~~~ z)) = md5F (i / 16) x y z := by
  by_cases c1 : i < 16
  · rw [show i / 16 = 0 by omega]; simp [c1, md5F]
  · by_cases c2 : i < 32
    · rw [show i / 16 = 1 by omega]; simp [c1, c2, md5F]
    · by_cases c3 : i < 48
      · rw [show i / 16 = 2 by omega]; simp [c1, c2, c3, md5F]
      · rw [show i / 16 = 3 by omega]; simp [c1, c2, c3, md5F]

theorem md5Round_ok (X : Nat → BitVec 32) (h : H4) (i : Nat) (hi : i < 64) :
    md5Round ((List.range 16).map X) h i = .ok (ofW4 (md5Step X (toW4 h) i)) := by
  unfold md5Round
  have hs : R.get md5Sines i = .ok (md5T (i + 1)) := by
    rw [R.get_ok (by exact hi), Sines.table i hi]
  simp only [md5Index_get i hi, md5Shifts_get i hi, hs, get_map_range _ _ _ (md5X_lt i), R.ok_bind,
    R.pure_eq, R.ok.injEq, md5F_eq i hi]
  simp only [ofW4, md5Step, toW4, H4.mk.injEq, and_true, true_and]
  rw [BitVec.add_comm (md5F _ _ _ _) h.h0]

theorem md5_ok : md5.Ok (fun h b => ofW4 (md5Compress (toW4 h) b)) (leBytes 8) 8 where
  transform h data off hoff := by
    have hoff : off + 64 ≤ data.length := hoff
    show md5Transform h data off = _
    unfold md5Transform
    generalize hb : (data.drop off).take md5.blockSize = blk
    have hb : (data.drop off).take (4 * 16) = blk := hb
    rw [loadWords_ok 32 4 leNat u32le (fun _ _ => rfl) data off (by omega), R.ok_bind, hb]
    rw [foldlM_ok (g := fun h i => ofW4 (md5Step (leWord blk) (toW4 h) i))]
    · simp only [R.ok_bind, R.pure_eq, R.ok.injEq]
      have := foldl_map_hom toW4 (fun h i => ofW4 (md5Step (leWord blk) (toW4 h) i))
        (md5Step (leWord blk)) (List.range 64) (fun _ _ _ => rfl) h
      unfold md5Compress
      simp only
      rw [← this]
      simp only [ofW4, toW4, BitVec.add_comm]
    · intro b a ha
      exact md5Round_ok (leWord blk) _ _ (List.mem_range.mp ha)
  limit := rfl
  L8 := by decide
  big := by decide
  sizeLen n := by simp [md5]
  field n _ := by simp [md5]

end Keramics.Digest
