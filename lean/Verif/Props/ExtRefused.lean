import Verif.Spec.ExtChain
import Verif.Props.ExtFileSystem

/-!
# C58 and C59: device numbers, and directories that are refused
-/

namespace Keramics.ExtFs
open Keramics.Spec Keramics.Spec.Ext Keramics.Spec.ExtFs

theorem readEntry_inv {data : List Byte} {r : Option (Nat × Nat × List Byte)} (h : readEntry data = .ok r) :
    8 ≤ data.length ∧ ((r = none ∧ field data 4 2 = 0) ∨
      ∃ x, r = some x ∧ x.2.1 = field data 4 2 ∧ 8 ≤ field data 4 2 ∧ field data 4 2 ≤ data.length ∧ 8 + field data 6 1 ≤ data.length) := by
  unfold readEntry at h
  obtain ⟨_, h1, h⟩ := R.bind_eq_ok.1 h
  have h1 := R.require_eq_ok.1 h1
  obtain ⟨b, hb, hbn⟩ := get_field (data := data) (off := 6) (by omega)
  rw [u32_ok (by omega), R.ok_bind, u16_ok (by omega), R.ok_bind, hb, R.ok_bind] at h
  refine ⟨h1, ?_⟩
  by_cases hz : field data 4 2 = 0
  · rw [if_pos hz] at h
    exact Or.inl ⟨(R.ok.inj h).symm, hz⟩
  · rw [if_neg hz] at h
    obtain ⟨_, h2, h⟩ := R.bind_eq_ok.1 h
    have h2 := R.require_eq_ok.1 h2
    obtain ⟨nm, h3, h⟩ := R.bind_eq_ok.1 h
    unfold readName at h3
    obtain ⟨_, h4, -⟩ := R.bind_eq_ok.1 h3
    have h4 := R.require_eq_ok.1 h4
    rw [List.length_drop] at h4
    exact Or.inr ⟨_, (R.ok.inj h).symm, rfl, h2.1, h2.2, by omega⟩

theorem nodeLoop_inv (fuel : Nat) : ∀ (data : List Byte) (entries l : List (List Byte × Nat)), nodeLoop fuel data entries = .ok l → Chain data := by
  induction fuel with
  | zero => intro data entries l h; cases h
  | succ fuel ih =>
    intro data entries l h
    unfold nodeLoop at h
    by_cases h0 : data.length = 0
    · rw [List.eq_nil_of_length_eq_zero h0]; exact .nil
    · rw [if_neg h0] at h
      obtain ⟨r, h1, h⟩ := R.bind_eq_ok.1 h
      obtain ⟨h8, hr⟩ := readEntry_inv h1
      rcases hr with ⟨-, hz⟩ | ⟨x, rfl, e1, h2, h3, h4⟩
      · exact .stop h8 hz
      · obtain ⟨a, b, c⟩ := x
        simp only at e1 h
        subst e1
        exact .next h2 h3 h4 (ih _ _ _ h)

theorem rangeLoop_inv {U : List Byte} {bs : Nat} (n : Nat) : ∀ (p : Nat) (entries l : List (List Byte × Nat)),
    rangeLoop U bs n (p * bs) entries = .ok l → ∀ b < n, Chain (block U bs (p + b)) := by
  induction n with
  | zero => intro p entries l _ b hb; omega
  | succ n ih =>
    intro p entries l h b hb
    unfold rangeLoop at h
    obtain ⟨data, h1, h⟩ := R.bind_eq_ok.1 h
    obtain ⟨en, h2, h⟩ := R.bind_eq_ok.1 h
    obtain ⟨off, h3, h⟩ := R.bind_eq_ok.1 h
    have h1 := readExactAt_eq_ok.1 h1
    have h3 := BlockTree.addU_eq_ok.1 h3
    cases b with
    | zero =>
      have := nodeLoop_inv _ _ _ _ h2
      rw [h1.1] at this
      exact this
    | succ b =>
      have e : off = (p + 1) * bs := by rw [Nat.succ_mul]; exact h3.2
      rw [e] at h
      have := ih (p + 1) en l h b (by omega)
      rwa [show p + (b + 1) = p + 1 + b by omega]

theorem readRanges_inv {U : List Byte} {bs : Nat} (rs : List Ext.Range) : ∀ (entries l : List (List Byte × Nat)), (∀ r ∈ rs, 0 < r.count) →
    readRanges U bs rs entries = .ok l → ∀ b : Nat, (∀ c : Nat, c ≤ b → ∃ p, (Ext.cover rs)[c]? = some (some p)) → ∀ p, (Ext.cover rs)[b]? = some (some p) →
      Chain (block U bs p) := by
  induction rs with
  | nil => intro entries l _ _ b _ p hp; simp [Ext.cover] at hp
  | cons r rs ih =>
    intro entries l hpos h b hall p hp
    have hr := hpos r List.mem_cons_self
    rw [Ext.cover, List.flatMap_cons, ← Ext.cover] at hp hall
    unfold readRanges at h
    by_cases hs : r.sparse = true
    · exfalso
      obtain ⟨q, hq⟩ := hall 0 (by omega)
      obtain ⟨m, hm⟩ : ∃ m, r.count = m + 1 := ⟨r.count - 1, by omega⟩
      unfold Ext.cover1 at hq
      rw [hs, hm, List.range_succ_eq_map] at hq
      simp at hq
    · have hs : r.sparse = false := by simpa using hs
      rw [hs, if_neg (by simp)] at h
      obtain ⟨off, h1, h⟩ := R.bind_eq_ok.1 h
      obtain ⟨en, h2, h⟩ := R.bind_eq_ok.1 h
      have h1 := BlockTree.mulU_eq_ok.1 h1
      rw [h1.2] at h2
      rw [cover1_stored hs] at hp hall
      have hl : (((List.range r.count).map (r.physical + ·)).map some).length = r.count := by simp
      by_cases hb : b < r.count
      · rw [List.getElem?_append_left (by rw [hl]; exact hb)] at hp
        simp [hb] at hp
        subst hp
        exact rangeLoop_inv _ _ _ _ h2 b hb
      · rw [List.getElem?_append_right (by rw [hl]; omega), hl] at hp
        refine ih en l (fun q hq => hpos q (List.mem_cons_of_mem _ hq)) h (b - r.count) ?_ p hp
        intro c hc
        obtain ⟨q, hq⟩ := hall (c + r.count) (by omega)
        rw [List.getElem?_append_right (by rw [hl]; omega), hl, Nat.add_sub_cancel] at hq
        exact ⟨q, hq⟩

end Keramics.ExtFs

namespace Keramics.Props
open Keramics.Spec Keramics.Spec.Ext Keramics.Spec.ExtFs
open Keramics.ExtFs hiding inodeTable descriptorSize

/-- C58, what holds of device numbers: a device file whose size is at most 2 has the 16-bit number that is stored first in its references, one with a larger size
is refused, and other files have none. Missing: the upper part of device numbers (the second reference). -/
theorem C58_device_partial (U : List Byte) (hv : Valid U) (hh : Handled U) (hU : U.length < 2 ^ 63) (n : Nat) (hn : Readable U n) :
    ∃ fs e, openFs U = .ok fs ∧ byIdentifier U fs n = .ok e ∧
      deviceIdentifier e =
        if kind (Spec.ExtFs.inode U n) = 2 ∨ kind (Spec.ExtFs.inode U n) = 6 then
          (if dataSize (Spec.ExtFs.inode U n) ≤ 2 then .ok (some (field (reference (Spec.ExtFs.inode U n)) 0 2)) else .err)
        else .ok none := by
  obtain ⟨fs, e1, hfs⟩ := openFs_ok hv hh hU
  obtain ⟨hf, l, hfh⟩ := hn
  obtain ⟨e, e2, he⟩ := byIdentifier_ok hv hh hU hfs hf hfh
  refine ⟨fs, e, e1, e2, ?_⟩
  unfold deviceIdentifier
  rw [he.inode.mode, he.inode.size, he.inode.reference]
  have h2 : field (Spec.ExtFs.inode U n) 0 2 &&& 0xf000 = 0x2000 ↔ _ := mode_kind (d := Spec.ExtFs.inode U n) 2
  have h6 : field (Spec.ExtFs.inode U n) 0 2 &&& 0xf000 = 0x6000 ↔ _ := mode_kind (d := Spec.ExtFs.inode U n) 6
  by_cases hk : kind (Spec.ExtFs.inode U n) = 2 ∨ kind (Spec.ExtFs.inode U n) = 6
  · rw [if_pos hk, if_pos (hk.imp h2.2 h6.2)]
    by_cases hs : dataSize (Spec.ExtFs.inode U n) ≤ 2
    · rw [if_pos hs, R.require_true hs, R.ok_bind, u16_ok (by rw [reference_length (file_length hv hf)]; omega), R.ok_bind]; rfl
    · rw [if_neg hs, R.require_false hs, R.err_bind]
  · rw [if_neg hk, if_neg (fun hc => hk (hc.imp h2.1 h6.1))]

theorem ExtSample.readable5 : Readable ExtSample.volume 5 := by
  refine ⟨⟨by decide, by decide +kernel, by rw [ExtSample.checksums_false]; simp, by decide +kernel, Or.inl (by decide +kernel)⟩, [], ?_⟩
  constructor
  · left; decide +kernel
  · rw [ExtSample.checksums_false]; simp
  · decide +kernel
  · decide +kernel
  · decide +kernel
  · intro h
    have : ¬ Short (Spec.ExtFs.inode ExtSample.volume 5) := by unfold Short; decide +kernel
    exact absurd h this
  · left; exact ⟨rfl, by decide +kernel⟩
  · simp

example : Readable ExtSample.volume 5 ∧ kind (Spec.ExtFs.inode ExtSample.volume 5) = 2 ∧ dataSize (Spec.ExtFs.inode ExtSample.volume 5) = 0 ∧
    field (reference (Spec.ExtFs.inode ExtSample.volume 5)) 0 2 = 0x103 :=
  ⟨ExtSample.readable5, by decide +kernel, by decide +kernel, by decide +kernel⟩

/-- C59, directories that are refused: if the entries of a directory are given, then its stored entries follow each other as they must, in the references or in
every block before the first one that is not stored. -/
theorem C59_refused (U : List Byte) (hv : Valid U) (hh : Handled U) (hU : U.length < 2 ^ 63) (n : Nat) (hn : Readable U n) (hk : kind (Spec.ExtFs.inode U n) = 4) :
    ∃ fs e, openFs U = .ok fs ∧ byIdentifier U fs n = .ok e ∧ ∀ k, subCount U fs e = .ok k →
      (flag (Spec.ExtFs.inode U n) 28 = true → Chain ((reference (Spec.ExtFs.inode U n)).drop 4)) ∧
      (flag (Spec.ExtFs.inode U n) 28 = false → ∀ map, Maps U (Spec.ExtFs.inode U n) map → ∀ b, b < dataBlocks U (Spec.ExtFs.inode U n) →
        (∀ c ≤ b, map c ≠ none) → ∀ p, map b = some p → Chain (block U (blockSize U) p)) := by
  obtain ⟨fs, e1, hfs⟩ := openFs_ok hv hh hU
  obtain ⟨hf, l, hfh⟩ := hn
  obtain ⟨e, e2, he⟩ := byIdentifier_ok hv hh hU hfs hf hfh
  refine ⟨fs, e, e1, e2, ?_⟩
  intro k h
  unfold subCount at h
  obtain ⟨es, h, -⟩ := R.bind_eq_ok.1 h
  unfold subEntries at h
  rw [if_pos ((isDirectory_ok he).2 hk)] at h
  unfold readDirectory at h
  rw [he.inode.flags, he.inode.reference] at h
  constructor
  · intro hfl
    rw [if_pos ((flag28 _).2 hfl)] at h
    obtain ⟨_, -, h⟩ := R.bind_eq_ok.1 h
    exact nodeLoop_inv _ _ _ _ h
  · intro hfl map hm b hb hall p hp
    rw [if_neg (fun hc => by rw [(flag28 _).1 hc] at hfl; cases hfl), hfs.super] at h
    obtain ⟨c1, c2⟩ := he.ranges (by omega) (by omega) map hm
    have hpos : ∀ {a b : Nat} {rs : List Ext.Range}, Ext.Chain a rs b → ∀ r ∈ rs, 0 < r.count := by
      intro a b rs h
      induction rs generalizing a with
      | nil => simp
      | cons r rs ih =>
        intro q hq
        rcases List.mem_cons.1 hq with rfl | hq
        · exact h.2.1
        · exact ih h.2.2 q hq
    have hB := he.least
    have hget : ∀ c : Nat, c ≤ b → (Ext.cover e.ranges)[c]? = some (map c) := by
      intro c hc
      rw [c2, List.getElem?_map, List.getElem?_range (by omega)]; rfl
    refine readRanges_inv e.ranges [] es (hpos c1) h b ?_ p (by rw [hget b (Nat.le_refl _), hp])
    intro c hc
    rw [hget c hc]
    cases hm' : map c with
    | none => exact absurd hm' (hall c hc)
    | some q => exact ⟨q, rfl⟩

/-- The entries of the root directory are given; with an entry of 4 bytes they are refused. -/
example : Readable ExtSample.volume 2 ∧ kind (Spec.ExtFs.inode ExtSample.volume 2) = 4 ∧
    (do let fs ← openFs ExtSample.volume; let e ← byIdentifier ExtSample.volume fs 2; subCount ExtSample.volume fs e : R Nat) = .ok 2 ∧
    (let U := ExtSample.volume.take 4096 ++ (leBytes 4 2 ++ leBytes 2 4 ++ ExtSample.volume.drop 4102)
     (do let fs ← openFs U; let e ← byIdentifier U fs 2; subCount U fs e : R Nat) = .err) :=
  ⟨ExtSample.readable2, by decide +kernel, by decide +kernel, by decide +kernel⟩

end Keramics.Props
