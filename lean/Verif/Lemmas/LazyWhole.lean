import Verif.Lemmas.LazyBlocks
import Verif.Model.SectorBitmap

/-! # Lemmas: images whose blocks are inserted as a whole -/

namespace Keramics.Lazy
open Keramics.Spec Keramics.BlockTree

/-- An image whose blocks are inserted as a whole can be read in every order. -/
theorem whole_total {file : List Byte} {parent : Option (List Byte)} {source : Nat → Source} {size N B p l : Nat} {fill : Nat → Nat → Tree → R Tree}
    (hp : 1 ≤ p) (hl : 0 < l) (hB : B = l * p) (h64 : N * B < 2 ^ 64) (hB64 : B < 2 ^ 64) (hN : size ≤ N * B) (val : Nat → Lazy.Range)
    (hval : ∀ b, b * B < size → Right source size ⟨b * B, B, val b⟩)
    (hfill : ∀ b x t, b * B < size → fill b x t = BlockTree.insert t (b * B) B (val b))
    (hin : LayeredInside file (parent.getD []) source size) (ops : List StreamOp) (hf : size + seekBudget ops < 2 ^ 63) :
    ∃ tr, Stream.run (stream fill file parent B size) ⟨BlockTree.new (N * B) p l, 0⟩ ops = .ok tr ∧ tr.map Prod.fst = ops ∧
      Trace true (layered file (parent.getD []) source size) size 0 tr := by
  have hc : 0 < B := by rw [hB]; exact Nat.mul_pos hl hp
  refine stream_total (fill := fill) hc
    (fun t => (t.perNode = p ∧ t.leafSize = l ∧ t.dataSize = N * B ∧ BlockOk t) ∧
      ∃ rs, Holds t rs ∧ ∀ r ∈ rs, Right source size r ∧ r.size = B ∧ B ∣ r.offset) ?_ ?_ hin _ ?_ ops hf
  · rintro t ⟨⟨-, -, hd, -⟩, rs, hh, hr⟩
    exact ⟨rs, hh, by rw [hd]; exact hN, hr⟩
  · rintro x t hx ⟨⟨g1, g2, g3, g4⟩, rs, hh, hr⟩ hnone
    have hb : x / B < N := by rw [Nat.div_lt_iff_lt_mul hc]; omega
    have hbB : x / B * B < size := Nat.lt_of_le_of_lt (Nat.div_mul_le_self x B) hx
    have hfree : ∀ r ∈ rs, r.apart ⟨x / B * B, B, val (x / B)⟩ := by
      intro r hm y ⟨hy1, hy2⟩
      have hy := (has_iff hc).1 hy2
      obtain ⟨-, hrs, c, hro⟩ := hr r hm
      have hr' : r = ⟨c * B, B, r.value⟩ := by
        cases r; simp only at hrs hro ⊢; rw [hrs, hro, Nat.mul_comm]
      rw [hr'] at hy1
      have hyc := (has_iff hc).1 hy1
      have hxr : r.has x := by rw [hr']; exact (has_iff hc).2 (by omega)
      have := get_range hh hm hxr (by omega)
      rw [hnone, R.ok.injEq] at this
      cases this
    have hle : x / B * B + B ≤ N * B := by
      have := Nat.mul_le_mul_right B hb
      rw [Nat.succ_mul] at this; omega
    obtain ⟨t', h1, h2, h3, h4, h5, h6⟩ := insert_block hh g4 (off := x / B * B) (size := B) (v := val (x / B)) (by rw [g1, g2, hB])
      (by omega) (Nat.dvd_mul_left _ _) hfree
    refine ⟨t', by rw [hfill _ _ _ hbB, h1], ⟨⟨by omega, by omega, by omega, h3⟩, _, h2, fun r hm => ?_⟩, ?_⟩
    · rcases List.mem_append.1 hm with hm | hm
      · exact hr r hm
      · rw [List.mem_singleton.1 hm]; exact ⟨hval _ hbB, rfl, Nat.dvd_mul_left _ _⟩
    · rw [get_range h2 (r := ⟨x / B * B, B, val (x / B)⟩) (by simp) ((has_iff hc).2 rfl) (by omega)]
      simp
  · exact ⟨⟨rfl, rfl, rfl, new_blockOk hp (by rw [Nat.mul_comm, ← hB]; exact hB64) h64⟩, [], new_holds _ _ _ hl, fun r hr => by cases hr⟩

theorem insert_dataSize {t t' : Tree} {off size : Nat} {v : Lazy.Range} (h : BlockTree.insert t off size v = .ok t') : t'.dataSize = t.dataSize := by
  unfold BlockTree.insert at h
  obtain ⟨_, _, h⟩ := R.bind_eq_ok.1 h
  obtain ⟨_, _, h⟩ := R.bind_eq_ok.1 h
  obtain ⟨_, _, h⟩ := R.bind_eq_ok.1 h
  obtain ⟨_, _, h⟩ := R.bind_eq_ok.1 h
  obtain ⟨_, _, h⟩ := R.bind_eq_ok.1 h
  obtain ⟨_, _, h⟩ := R.bind_eq_ok.1 h
  obtain ⟨_, _, h⟩ := R.bind_eq_ok.1 h
  rw [R.pure_eq, R.ok.injEq] at h
  rw [← h]

theorem insertRanges_dataSize {unset : Kind} {rs : List (Nat × Bool)} {m d : Nat} {t t' : Tree} (h : SectorBitmap.insertRanges unset rs m d t = .ok t') :
    t'.dataSize = t.dataSize := by
  induction rs generalizing m d t with
  | nil => rw [SectorBitmap.insertRanges, R.ok.injEq] at h; rw [h]
  | cons q rs ih =>
    obtain ⟨size, v⟩ := q
    rw [SectorBitmap.insertRanges] at h
    obtain ⟨t1, h1, h⟩ := R.bind_eq_ok.1 h
    obtain ⟨m1, _, h⟩ := R.bind_eq_ok.1 h
    obtain ⟨m2, _, h⟩ := R.bind_eq_ok.1 h
    rw [ih h, insert_dataSize h1]

theorem insert_inside {t t' : Tree} {off size : Nat} {v : Lazy.Range} (h : BlockTree.insert t off size v = .ok t') : off + size ≤ t.dataSize := by
  unfold BlockTree.insert at h
  obtain ⟨_, h1, h⟩ := R.bind_eq_ok.1 h
  obtain ⟨_, rfl⟩ := addU_eq_ok.1 h1
  obtain ⟨_, h2, h⟩ := R.bind_eq_ok.1 h
  exact R.require_eq_ok.1 h2

/-- Inserting a block as a whole. -/
theorem insert_whole_sound {source : Nat → Source} {size p l b B : Nat} {t t' : Tree} {v : Lazy.Range} (hp : 2 ≤ p) (hl : 0 < l) (hB : B = l * p)
    (h1 : t.perNode = p) (h2 : t.leafSize = l) (ht : TreeRight source size t) (hv : Right source size ⟨b * B, B, v⟩)
    (h : BlockTree.insert t (b * B) B v = .ok t') : t'.perNode = p ∧ t'.leafSize = l ∧ t'.dataSize = t.dataSize ∧ TreeRight source size t' := by
  obtain ⟨rs, hh, hd, hr⟩ := ht
  have hc : 0 < B := by rw [hB]; exact Nat.mul_pos hl (by omega)
  obtain ⟨g, d1, d2, d3⟩ := insert_sound hh hc (by
    rw [h1, h2]
    intro k hk hle
    refine Nat.dvd_trans ?_ (Nat.dvd_mul_left _ _)
    rw [hB] at hle ⊢
    have hle' : p ^ k ≤ p := Nat.le_of_mul_le_mul_left hle hl
    have hk2 : k ≤ 1 := by
      rcases Nat.lt_or_ge 1 k with h | h
      · have := Nat.pow_lt_pow_right (a := p) (by omega) h
        rw [Nat.pow_one] at this; omega
      · exact h
    rcases Nat.lt_or_ge k 1 with hk1 | hk1
    · rw [show k = 0 by omega, Nat.pow_zero, Nat.mul_one]
      exact Nat.dvd_mul_right _ _
    · rw [show k = 1 by omega, Nat.pow_one]) h
  refine ⟨by rw [d2, h1], by rw [d3, h2], d1, _, g, by omega, fun r hm => ?_⟩
  rcases List.mem_append.1 hm with hm | hm
  · exact hr r hm
  · rw [List.mem_singleton.1 hm]; exact hv

theorem trace_seek_read {C : List Byte} {S q n : Nat} {tr : List (StreamOp × StreamOut)} (h : Trace true C S 0 tr)
    (hops : tr.map Prod.fst = [.seek (.start q), .read n]) (hq : q < S) :
    tr = [(.seek (.start q), .position q), (.read n, .bytes ((C.drop q).take n))] := by
  cases h with
  | nil => simp at hops
  | read => simp at hops
  | seek hp h =>
    simp only [List.map_cons, List.cons.injEq, StreamOp.seek.injEq] at hops
    obtain ⟨rfl, hops⟩ := hops
    cases h with
    | nil => simp at hops
    | seek => simp at hops
    | read hr h =>
      simp only [List.map_cons, List.cons.injEq, StreamOp.read.injEq, List.map_eq_nil_iff] at hops
      obtain ⟨rfl, rfl⟩ := hops
      have h1 := hp (by simp [target])
      simp only [target, Nat.cast_inj] at h1
      unfold readOk at hr
      rw [if_pos (by simp only [target]; omega)] at hr
      rw [hr.2.2 rfl, h1]
      rfl

end Keramics.Lazy
