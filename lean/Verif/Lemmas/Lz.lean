import Verif.Base.Sat
import Verif.Base.Tactics
import Verif.Model.Lz
import Verif.Spec.Lz

namespace Keramics.Lz
open Spec.Lz

@[simp] theorem copy_length (d n : Nat) (out : List Byte) : (copy d n out).length = out.length + n := by
  induction n generalizing out with
  | zero => rfl
  | succ n ih => simp [copy, ih]; omega

theorem copyMatch_ok (d n : Nat) (out rest : List Byte) (hd : 1 ≤ d) (hd' : d ≤ out.length)
    (hn : n ≤ rest.length) :
    copyMatch n (out ++ rest) out.length (out.length - d) = .ok (copy d n out ++ rest.drop n) := by
  induction n generalizing out rest with
  | zero => rfl
  | succ n ih =>
    cases rest with
    | nil => simp at hn
    | cons r rest =>
      unfold copyMatch copy
      have hlt : out.length - d < (out ++ r :: rest).length := by simp; omega
      rw [R.get_ok hlt, R.ok_bind, R.set_ok (by simp), R.ok_bind]
      have e : (out ++ r :: rest)[out.length - d] = out.getD (out.length - d) 0 := by
        rw [List.getElem_append_left (by omega), List.getD_eq_getElem?_getD,
          List.getElem?_eq_getElem (by omega), Option.getD_some]
      rw [e]
      have e2 : (out ++ r :: rest).set out.length (out.getD (out.length - d) 0)
          = (out ++ [out.getD (out.length - d) 0]) ++ rest := by
        rw [List.set_append_right _ _ (by omega)]; simp
      rw [e2]
      have := ih (out ++ [out.getD (out.length - d) 0]) rest (by simp; omega) (by simpa using hn)
      simp only [List.length_append, List.length_singleton] at this
      rw [show out.length - d + 1 = out.length + 1 - d by omega, this]
      simp

theorem splice_literal (out rest bytes : List Byte) (h : bytes.length ≤ rest.length) :
    R.splice (out ++ rest) out.length (out.length + bytes.length) bytes
      = .ok ((out ++ bytes) ++ rest.drop bytes.length) := by
  rw [R.splice_ok (by omega) (by simp; omega) (by omega)]
  simp [List.drop_append]

@[simp] theorem run_append (out : List Byte) (a b : List Op) : run out (a ++ b) = run (run out a) b := by
  induction a generalizing out with
  | nil => rfl
  | cons x a ih => simp [run, ih]

theorem ok_append (out : List Byte) (a b : List Op) : Ok out (a ++ b) ↔ Ok out a ∧ Ok (run out a) b := by
  induction a generalizing out with
  | nil => simp [Ok, run]
  | cons x a ih => simp [Ok, run, ih, and_assoc]

theorem le_run_op (out : List Byte) (op : Op) : out.length ≤ (op.run out).length := by
  cases op <;> simp [Op.run]

theorem le_run (out : List Byte) (ops : List Op) : out.length ≤ (run out ops).length := by
  induction ops generalizing out with
  | nil => exact Nat.le_refl _
  | cons op ops ih => exact Nat.le_trans (le_run_op out op) (ih _)

theorem copyMatch_sat (n : Nat) (buf : List Byte) (dst src : Nat) (hs : src ≤ dst)
    (hd : dst + n ≤ buf.length) :
    R.Sat (copyMatch n buf dst src) fun b =>
      b.length = buf.length ∧ b.drop (dst + n) = buf.drop (dst + n) := by
  induction n generalizing buf dst src with
  | zero => exact R.sat_ok ⟨rfl, rfl⟩
  | succ n ih =>
    unfold copyMatch
    refine R.Sat.bind (R.sat_get (by omega)) fun v _ => ?_
    rw [R.set_ok (by omega), R.ok_bind]
    refine R.Sat.mono (ih (buf.set dst v) (dst + 1) (src + 1) (by omega) (by simp; omega)) ?_
    rintro b ⟨h1, h2⟩
    refine ⟨by simpa using h1, ?_⟩
    rw [show dst + (n + 1) = dst + 1 + n by omega, h2, List.drop_set_of_lt (by omega)]

theorem drop_later {α} {a b : List α} {i j : Nat} (h : a.drop i = b.drop i) (hij : i ≤ j) :
    a.drop j = b.drop j := by
  have := congrArg (List.drop (j - i)) h
  rwa [List.drop_drop, List.drop_drop, show i + (j - i) = j by omega] at this

end Keramics.Lz
