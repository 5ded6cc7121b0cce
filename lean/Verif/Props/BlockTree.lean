import Verif.Lemmas.BlockTree

/-! # C11 Block tree lookup returns exactly the inserted ranges -/

namespace Keramics.BlockTree
open Keramics.Spec.BlockTree

variable {α : Type}

/-- A history of insertions into a new tree. -/
def build (dataSize perNode leafSize : Nat) (rs : List (Range α)) : R (Tree α) :=
  rs.foldlM (fun t r => insert t r.offset r.size r.value) (new dataSize perNode leafSize)

theorem foldlM_sound (rs done : List (Range α)) (t t' : Tree α) (hh : Holds t done)
    (hr : ∀ r ∈ rs, 0 < r.size ∧ Aligned t.perNode t.leafSize r.offset r.size)
    (hok : rs.foldlM (fun t r => insert t r.offset r.size r.value) t = .ok t') :
    Holds t' (done ++ rs) ∧ t'.dataSize = t.dataSize := by
  induction rs generalizing done t with
  | nil =>
    simp only [List.foldlM_nil, R.pure_eq, R.ok.injEq] at hok
    subst hok
    rw [List.append_nil]
    exact ⟨hh, rfl⟩
  | cons r rs ih =>
    rw [List.foldlM_cons] at hok
    obtain ⟨t1, h1, hok⟩ := R.bind_eq_ok.1 hok
    have hr0 := hr r (by simp)
    obtain ⟨hh1, e1, e2, e3⟩ := insert_sound hh hr0.1 hr0.2 h1
    have := ih (done ++ [r]) t1 hh1 (fun s hs => by rw [e2, e3]; exact hr s (by simp [hs])) hok
    rw [List.append_assoc] at this
    rw [← e1]
    exact this

theorem insert_leaf_pos {t t' : Tree α} {o s : Nat} {v : α} (h : insert t o s v = .ok t') : 0 < t.leafSize := by
  unfold insert at h
  obtain ⟨_, _, h⟩ := R.bind_eq_ok.1 h
  obtain ⟨_, _, h⟩ := R.bind_eq_ok.1 h
  obtain ⟨_, h1, h⟩ := R.bind_eq_ok.1 h
  rw [R.check_eq_ok] at h1
  omega

end Keramics.BlockTree

namespace Keramics.Props
open Keramics.BlockTree Keramics.Spec.BlockTree

variable {α : Type}

/-- C11, what holds: for every geometry and every history of insertions of non-empty ranges whose
offset is a multiple of every power of the number of elements per node (times the leaf size) that is
not larger than the range, if all insertions succeeded then the ranges lie within the data and have
no position in common, and a look-up of any offset below the data size returns the value of the
range that has the offset and nothing if there is none. Missing: the ranges that are not aligned
(`C11_violated`) and empty ranges. -/
theorem C11_lookup_partial (dataSize perNode leafSize : Nat) (rs : List (Range α)) (t : Tree α)
    (hr : ∀ r ∈ rs, 0 < r.size ∧
      ∀ k, 0 < leafSize * perNode ^ k → leafSize * perNode ^ k ≤ r.size → leafSize * perNode ^ k ∣ r.offset)
    (hok : build dataSize perNode leafSize rs = .ok t) :
    rs.Pairwise Range.apart ∧ (∀ r ∈ rs, r.offset + r.size ≤ dataSize) ∧
    ∀ x, x < dataSize → ∃ a, get t x = .ok a ∧ Answer rs x a := by
  cases rs with
  | nil =>
    simp only [build, List.foldlM_nil, R.pure_eq, R.ok.injEq] at hok
    subst hok
    refine ⟨List.Pairwise.nil, by simp, fun x _ => ⟨none, rfl, by intro r hr; cases hr⟩⟩
  | cons r rs =>
    have hl : 0 < leafSize := by
      unfold build at hok
      rw [List.foldlM_cons] at hok
      obtain ⟨t1, h1, _⟩ := R.bind_eq_ok.1 hok
      exact insert_leaf_pos h1
    obtain ⟨hh, hd⟩ := foldlM_sound (r :: rs) [] (new dataSize perNode leafSize) t (new_holds _ _ _ hl) hr hok
    have hd : t.dataSize = dataSize := hd
    rw [List.nil_append] at hh
    refine ⟨hh.apart, fun s hs => by rw [← hd]; exact hh.inside s hs, fun x hx => ?_⟩
    exact get_holds hh (by omega)

/-- C11: in a tree with at most one element per node (the trees of files of FAT, NTFS and ext) an
insertion succeeds for every free range of whole leaf values within the data. -/
theorem C11_flat_accepts (dataSize perNode leafSize : Nat) (hp : perNode ≤ 1) (hl : 0 < leafSize)
    (h64 : dataSize < 2 ^ 64) (rs : List (Range α))
    (hr : ∀ r ∈ rs, 0 < r.size ∧ leafSize ∣ r.offset ∧ leafSize ∣ r.size ∧ r.offset + r.size ≤ dataSize)
    (hap : rs.Pairwise Range.apart) : ∃ t, build dataSize perNode leafSize rs = .ok t := by
  suffices h : ∀ (rs done : List (Range α)) (t : Tree α), Holds t done → t.dataSize = dataSize → t.perNode = perNode →
      t.leafSize = leafSize → (∀ r ∈ rs, 0 < r.size ∧ leafSize ∣ r.offset ∧ leafSize ∣ r.size ∧ r.offset + r.size ≤ dataSize) →
      (done ++ rs).Pairwise Range.apart →
      ∃ t', rs.foldlM (fun t r => insert t r.offset r.size r.value) t = .ok t' from
    h rs [] _ (new_holds _ _ _ hl) rfl rfl rfl hr hap
  intro rs
  induction rs with
  | nil => intro done t _ _ _ _ _ _; exact ⟨t, rfl⟩
  | cons r rs ih =>
    intro done t hh e1 e2 e3 hr hap
    subst e1 e2 e3
    obtain ⟨h1, h2, h3, h4⟩ := hr r (by simp)
    have hap' : ∀ s ∈ done, s.apart ⟨r.offset, r.size, r.value⟩ := fun s hs =>
      (List.pairwise_append.1 hap).2.2 s hs r (by simp)
    obtain ⟨t1, e, hh1, d1, d2, d3⟩ := insert_flat hh hp h1 h4 h64 h2 h3 hap'
    obtain ⟨t', e'⟩ := ih (done ++ [r]) t1 hh1 d1 d2 d3 (fun s hs => hr s (by simp [hs]))
      (by rw [List.append_assoc]; exact hap)
    exact ⟨t', by rw [List.foldlM_cons, e, R.ok_bind]; exact e'⟩

/-- C11: in a tree with two or more elements per node, ranges of one size, a power of the number of
elements per node times the leaf size, and at multiples of that size (the trees of EWF, VHD, VHDX and
sparse disk images) can be inserted in any order as long as they are free. -/
theorem C11_uniform_accepts (dataSize perNode leafSize j : Nat) (hp : 2 ≤ perNode) (hl : 0 < leafSize)
    (hmul : perNode * leafSize < 2 ^ 64) (h64 : dataSize < 2 ^ 64) (rs : List (Range α))
    (hr : ∀ r ∈ rs, r.size = leafSize * perNode ^ j ∧ r.size ∣ r.offset ∧ r.offset + r.size ≤ dataSize)
    (hap : rs.Pairwise Range.apart) : ∃ t, build dataSize perNode leafSize rs = .ok t := by
  suffices h : ∀ (rs done : List (Range α)) (t : Tree α), Holds t done → UniTree j t → t.dataSize = dataSize →
      t.perNode = perNode → t.leafSize = leafSize →
      (∀ r ∈ rs, r.size = leafSize * perNode ^ j ∧ r.size ∣ r.offset ∧ r.offset + r.size ≤ dataSize) →
      (done ++ rs).Pairwise Range.apart →
      ∃ t', rs.foldlM (fun t r => insert t r.offset r.size r.value) t = .ok t' from
    h rs [] _ (new_holds _ _ _ hl) (new_uniform _ _ _ _) rfl rfl rfl hr hap
  intro rs
  induction rs with
  | nil => intro done t _ _ _ _ _ _ _; exact ⟨t, rfl⟩
  | cons r rs ih =>
    intro done t hh hu e1 e2 e3 hr hap
    subst e1 e2 e3
    obtain ⟨h1, h2, h3⟩ := hr r (by simp)
    have hap' : ∀ s ∈ done, s.apart ⟨r.offset, r.size, r.value⟩ := fun s hs =>
      (List.pairwise_append.1 hap).2.2 s hs r (by simp)
    rw [h1] at h2 h3 hap'
    obtain ⟨t1, e, hh1, hu1, d1, d2, d3⟩ := insert_uniform hh hp hmul hu h3 h64 h2 hap'
    rw [← h1] at e hh1
    obtain ⟨t', e'⟩ := ih (done ++ [r]) t1 hh1 hu1 d1 d2 d3 (fun s hs => hr s (by simp [hs]))
      (by rw [List.append_assoc]; exact hap)
    exact ⟨t', by rw [List.foldlM_cons, e, R.ok_bind]; exact e'⟩

/-- C11 fails for ranges that are not aligned: the insertion of the range from 2 to 6 into a tree of 8
bytes with leaf values of 1 byte and 2 elements per node succeeds, but the value is found at offset 0
and not at offset 5. -/
theorem C11_violated :
    ∃ t, build 8 2 1 [⟨2, 4, 'a'⟩] = .ok t ∧ get t 0 = .ok (some 'a') ∧ get t 5 = .ok none :=
  ⟨_, rfl, by decide, by decide⟩

/-- C11: free ranges within the data that span two nodes cannot be inserted. -/
theorem C11_violated_spanning :
    build 16 2 1 [⟨0, 1, 'a'⟩, ⟨4, 8, 'b'⟩] = .panic ∧
    (⟨0, 1, 'a'⟩ : Range Char).apart ⟨4, 8, 'b'⟩ := by
  refine ⟨rfl, fun x hx => ?_⟩
  have h1 := hx.1.2
  have h2 := hx.2.1
  simp only at h1 h2
  omega

/-- Ranges of 4 bytes in a tree of three levels, out of order. -/
example :
    let rs : List (Range Char) := [⟨12, 4, 'd'⟩, ⟨0, 4, 'a'⟩, ⟨20, 4, 'f'⟩]
    (∀ r ∈ rs, r.size = 1 * 2 ^ 2 ∧ r.size ∣ r.offset ∧ r.offset + r.size ≤ 32) ∧
    ∃ t, build 32 2 1 rs = .ok t ∧ get t 13 = .ok (some 'd') ∧ get t 4 = .ok none ∧ get t 23 = .ok (some 'f') := by
  refine ⟨by decide, _, rfl, by decide, by decide, by decide⟩

end Keramics.Props
