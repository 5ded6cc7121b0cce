import Verif.Lemmas.BlockTree

/-! # Lemmas: block trees whose ranges are all of the same size -/

namespace Keramics.BlockTree
open Keramics.Spec.BlockTree
variable {α : Type}

theorem setValues_ne_panic {n : Nat} {v : α} (is : List Nat) (h : ∀ i ∈ is, i < n) (f : Nat → Option α) :
    setValues n v is f ≠ .panic := by
  induction is generalizing f with
  | nil => unfold setValues; simp
  | cons i is ih =>
    unfold setValues
    rw [R.check_true (h i (by simp)), R.ok_bind]
    unfold R.require
    split
    · rw [R.ok_bind]; exact ih (fun j hj => h j (by simp [hj])) _
    · intro h; cases h

theorem insertNode_leaf_safe {p l off size : Nat} {v : α} (hl : 0 < l) (fuel : Nat) {k o n : Nat} (hn : 0 < n)
    (hpk : 0 < p ^ k) (f : Nat → Option α) (hsize : l * p ^ k ∣ size) (hoff : l * p ^ k ∣ off - o) (ho : o ≤ off)
    (hhigh : off + size ≤ o + l * p ^ k * n) :
    insertNode p l off size v (fuel + 1) (.leaf o (l * p ^ k) n f) ≠ .panic := by
  have he : 0 < l * p ^ k := Nat.mul_pos hl hpk
  unfold insertNode
  generalize l * p ^ k = E at *
  obtain ⟨c, rfl⟩ := hsize
  obtain ⟨a, ha⟩ := hoff
  rw [R.check_true (by omega), R.ok_bind, R.require_true (by simp), R.ok_bind, R.subU_ok ho, R.ok_bind]
  simp only [if_neg hn.ne']
  rw [ha, Nat.mul_div_cancel_left _ he, Nat.mul_div_cancel_left _ he]
  have hac : a + c ≤ n := by
    apply Nat.le_of_mul_le_mul_left _ he
    rw [Nat.mul_add]; omega
  have := setValues_ne_panic (v := v) (List.range' a c) (n := n) (by
    intro i hi
    rw [List.mem_range'_1] at hi; omega) f
  intro h
  rw [R.bind_eq_panic] at h
  rcases h with h | ⟨_, _, h⟩
  · exact this h
  · cases h

theorem insertNode_uniform_safe {p l off j : Nat} {v : α} (hl : 0 < l) (hp : 2 ≤ p) (hoff : l * p ^ j ∣ off)
    (fuel : Nat) {k o n : Nat} (hn : 0 < n) (hdvd : l * p ^ k ∣ o) (node : Node α) (hpres : node ≠ .absent)
    (hw : wf p l node k o n) (hu : Uni j node k) (hf : k < fuel) (ho : o ≤ off)
    (hhigh : off + l * p ^ j ≤ o + l * p ^ k * n) :
    insertNode p l off (l * p ^ j) v fuel node ≠ .panic := by
  induction fuel generalizing k o n node with
  | zero => omega
  | succ fuel ih =>
    have hpk : 0 < p ^ k := Nat.pow_pos (by omega)
    have hpj : 0 < p ^ j := Nat.pow_pos (by omega)
    have hS : 0 < l * p ^ j := Nat.mul_pos hl hpj
    have he : 0 < l * p ^ k := Nat.mul_pos hl hpk
    cases node with
    | absent => exact absurd rfl hpres
    | leaf o' e m f =>
      obtain ⟨rfl, rfl, rfl⟩ := hw
      have hkj : l * p ^ k ∣ l * p ^ j := Nat.mul_dvd_mul_left l (Nat.pow_dvd_pow p hu)
      exact insertNode_leaf_safe (v := v) hl fuel hn hpk f hkj
        (Nat.dvd_sub (Nat.dvd_trans hkj hoff) hdvd) ho hhigh
    | branch o' e m sub =>
      obtain ⟨rfl, rfl, rfl, hk, _, hsub⟩ := hw
      obtain ⟨hjk, husub⟩ := hu
      have hjd : l * p ^ j ∣ l * p ^ k := Nat.mul_dvd_mul_left l (Nat.pow_dvd_pow p (by omega))
      have hjd1 : l * p ^ j ∣ l * p ^ (k - 1) := Nat.mul_dvd_mul_left l (Nat.pow_dvd_pow p (by omega))
      have hpp := pow_pred (l := l) (p := p) hk
      have hd := Nat.div_add_mod (off - o') (l * p ^ k)
      have hm := Nat.mod_lt (off - o') he
      have hroom : (off - o') % (l * p ^ k) + l * p ^ j ≤ l * p ^ k := by
        have h1 : l * p ^ j ∣ (off - o') % (l * p ^ k) :=
          (Nat.dvd_mod_iff hjd).2 (Nat.dvd_sub hoff (Nat.dvd_trans hjd hdvd))
        obtain ⟨u, hu⟩ := h1
        obtain ⟨w, hw⟩ := hjd
        rw [hu] at hm ⊢
        rw [hw] at hm ⊢
        rw [← Nat.mul_succ]
        apply Nat.mul_le_mul_left
        exact Nat.lt_of_mul_lt_mul_left hm
      have hfirst : (off - o') / (l * p ^ k) < m := (div_lt_iff he ho).2 (by omega)
      have hdvd' : l * p ^ (k - 1) ∣ o' + (off - o') / (l * p ^ k) * (l * p ^ k) := by
        have h1 : l * p ^ (k - 1) ∣ l * p ^ k := by rw [← hpp]; exact Nat.dvd_mul_right _ _
        exact Nat.dvd_add (Nat.dvd_trans h1 hdvd) (Nat.dvd_trans h1 (Nat.dvd_mul_left _ _))
      have hSk : l * p ^ j ≤ l * p ^ k := Nat.le_of_dvd he hjd
      have hle1 : l * p ^ (k - 1) ≤ l * p ^ j ↔ k - 1 = j := by
        constructor
        · intro h
          have h1 := Nat.le_of_mul_le_mul_left h hl
          have h2 := (Nat.pow_le_pow_iff_right (show 1 < p by omega)).1 h1
          omega
        · intro h; rw [h]
      unfold insertNode
      simp only [if_neg hn.ne']
      rw [R.check_true (by omega), R.ok_bind, R.subU_ok ho, R.ok_bind, grow_node hl hp hk, R.ok_bind,
        divCeil_eq_one hS hSk]
      obtain ⟨child, e1, w1, hlook, hcp, huni⟩ := child_of (o := o') (e := l * p ^ k) (sub := sub) hp hk (l * p ^ j)
        ((off - o') / (l * p ^ k)) m (Nat.le_mul_of_pos_right _ hpj) (hsub _ hfirst) off v fuel
      have hcom : (off - o') / (l * p ^ k) * (l * p ^ k) = l * p ^ k * ((off - o') / (l * p ^ k)) := Nat.mul_comm _ _
      have huc := huni j (husub _ hfirst) (fun h => by have := hle1.1 h; omega)
        (fun h => by have h' := mt hle1.2 h; omega)
      have hc' := ih (by omega) hdvd' child hcp w1 huc (by omega) (by omega) (by rw [hpp]; omega)
      rw [show List.range' ((off - o') / (l * p ^ k)) 1 = [(off - o') / (l * p ^ k)] from rfl]
      unfold setNodes
      rw [R.check_true hfirst, R.ok_bind, e1]
      intro h
      rw [R.bind_eq_panic] at h
      rcases h with h | ⟨_, _, h⟩
      · rw [R.bind_eq_panic] at h
        rcases h with h | ⟨_, _, h⟩
        · exact hc' h
        · unfold setNodes at h; cases h
      · cases h

/-! ## Trees of equal blocks, each an element of the lowest branch nodes -/

/-- A tree used for blocks of `perNode` leaf values only. -/
def BlockOk (t : Tree α) : Prop := 1 ≤ t.perNode ∧ t.perNode * t.leafSize < 2 ^ 64 ∧ t.dataSize < 2 ^ 64 ∧ (t.perNode = 1 ∨ UniTree 1 t)

theorem new_blockOk {d p l : Nat} (hp : 1 ≤ p) (hm : p * l < 2 ^ 64) (hd : d < 2 ^ 64) : BlockOk (new d p l : Tree α) :=
  ⟨hp, hm, hd, Or.inr (new_uniform d p l 1)⟩

/-- Every block that is free can be inserted. -/
theorem insert_block {t : Tree α} {rs : List (Range α)} (hh : Holds t rs) (hb : BlockOk t) {off size : Nat} {v : α}
    (hs : size = t.leafSize * t.perNode) (hin : off + size ≤ t.dataSize) (hoff : size ∣ off)
    (hap : ∀ r ∈ rs, r.apart ⟨off, size, v⟩) :
    ∃ t', insert t off size v = .ok t' ∧ Holds t' (rs ++ [⟨off, size, v⟩]) ∧ BlockOk t' ∧ t'.dataSize = t.dataSize ∧
      t'.perNode = t.perNode ∧ t'.leafSize = t.leafSize := by
  obtain ⟨hp, hm, h64, hu⟩ := hb
  have hl := hh.leaf
  have hsp : 0 < size := by rw [hs]; exact Nat.mul_pos hl hp
  rcases Nat.lt_or_ge 1 t.perNode with h1 | h1
  · have hu : UniTree 1 t := by
      rcases hu with h | h
      · omega
      · exact h
    have hs' : size = t.leafSize * t.perNode ^ 1 := by rw [Nat.pow_one]; exact hs
    rw [hs'] at hin hoff hap ⊢
    obtain ⟨t', e, h, u, d1, d2, d3⟩ := insert_uniform hh (j := 1) (v := v) (by omega) hm hu hin h64 hoff hap
    exact ⟨t', e, h, ⟨by omega, by rw [d2, d3]; exact hm, by omega, Or.inr u⟩, d1, d2, d3⟩
  · have hd : t.leafSize ∣ size := hs ▸ Nat.dvd_mul_right _ _
    obtain ⟨t', e, h, d1, d2, d3⟩ := insert_flat hh (v := v) h1 hsp hin h64 (Nat.dvd_trans hd hoff) hd hap
    exact ⟨t', e, h, ⟨by omega, by rw [d2, d3]; exact hm, by omega, Or.inl (by omega)⟩, d1, d2, d3⟩

/-- A block that could be inserted was inside and free. -/
theorem insert_block_sound {t t' : Tree α} {rs : List (Range α)} (hh : Holds t rs) (hb : BlockOk t) {off size : Nat} {v : α}
    (hs : size = t.leafSize * t.perNode) (hoff : size ∣ off) (h : insert t off size v = .ok t') :
    off + size ≤ t.dataSize ∧ ∀ r ∈ rs, r.apart ⟨off, size, v⟩ := by
  have hl := hh.leaf
  have hsp : 0 < size := by rw [hs]; exact Nat.mul_pos hl hb.1
  obtain ⟨h1, d, -, -⟩ := insert_sound hh hsp (v := v) (t' := t') (off := off) (by
    intro k hk hle
    refine Nat.dvd_trans ?_ hoff
    rw [hs]
    apply Nat.mul_dvd_mul_left
    have hle' : t.perNode ^ k ≤ t.perNode := by rw [hs] at hle; exact Nat.le_of_mul_le_mul_left hle hl
    rcases Nat.lt_or_ge 1 t.perNode with h1 | h1
    · rcases Nat.lt_or_ge 1 k with hk2 | hk2
      · have := Nat.pow_lt_pow_right h1 hk2
        rw [Nat.pow_one] at this; omega
      · have : k = 0 ∨ k = 1 := by omega
        rcases this with rfl | rfl <;> simp
    · have := hb.1
      have h1' : t.perNode = 1 := by omega
      rw [h1', Nat.one_pow]) h
  refine ⟨?_, fun r hr => ?_⟩
  · rw [← d]; exact h1.inside ⟨off, size, v⟩ (by simp)
  · exact (List.pairwise_append.1 h1.apart).2.2 r hr _ (by simp)

/-- Inserting a block never panics. -/
theorem insert_block_ne_panic {t : Tree α} {rs : List (Range α)} (hh : Holds t rs) (hb : BlockOk t) {off size : Nat} {v : α}
    (hs : size = t.leafSize * t.perNode) (hadd : off + size < 2 ^ 64) (hoff : size ∣ off) :
    insert t off size v ≠ .panic := by
  have hl := hh.leaf
  by_cases hin : off + size ≤ t.dataSize
  swap
  · unfold insert
    rw [R.addU_ok hadd, R.ok_bind]
    simp [R.require, hin]
  obtain ⟨hp, hm, h64, hu⟩ := hb
  have hsz : t.leafSize ∣ size := hs ▸ Nat.dvd_mul_right _ _
  have hsp : 0 < size := by rw [hs]; exact Nat.mul_pos hl hp
  have hls := Nat.le_of_dvd hsp hsz
  obtain ⟨root, k, n, e1, hpres, w1, hn, hpk, hcov, hk, hlook, hun⟩ := ensureRoot_spec hh hls (by omega) (fun _ => hm)
  rw [insert_panicfree_root hh v hin h64 (Nat.mod_eq_zero_of_dvd (Nat.dvd_trans hsz hoff)) (Nat.mod_eq_zero_of_dvd hsz) e1]
  intro h
  rw [R.bind_eq_panic] at h
  rcases h with h | ⟨_, _, h⟩
  swap
  · cases h
  rcases Nat.lt_or_ge 1 t.perNode with h1 | h1
  · have huroot : Uni 1 root k := by
      by_cases hr : t.root = .absent
      · exact hun hr 1 (by rw [Nat.pow_one]; exact hs) (by omega)
      · have : root = t.root := by
          have h := e1
          unfold ensureRoot at h
          split at h
          · next h' => exact absurd h' hr
          · exact (R.ok.inj h).symm
        rw [this] at w1 ⊢
        rcases hu with h' | h'
        · omega
        · exact h' k n w1
    have hs' : size = t.leafSize * t.perNode ^ 1 := by rw [Nat.pow_one]; exact hs
    rw [hs'] at h hoff hin
    exact insertNode_uniform_safe hl (by omega) hoff (t.dataSize + 1) hn (Nat.dvd_zero _) root hpres w1 huroot
      (by omega) (by omega) (by omega) h
  · have hp1 : t.perNode = 1 := by omega
    cases root with
    | absent => exact absurd rfl hpres
    | branch o e m sub => obtain ⟨-, -, -, -, h, -⟩ := w1; omega
    | leaf o e m f =>
      obtain ⟨rfl, rfl, rfl⟩ := w1
      refine insertNode_leaf_safe (off := off) (size := size) hl t.dataSize hn hpk f ?_ ?_ (by omega) (by omega) h
      · rw [hp1, Nat.one_pow, Nat.mul_one]; exact hsz
      · rw [hp1, Nat.one_pow, Nat.mul_one]; exact Nat.dvd_trans hsz hoff

/-! ## Blocks by their number -/

/-- The ranges of numbered blocks. -/
def blocksOf (size : Nat) (l : List (Nat × α)) : List (Range α) := l.map fun p => ⟨p.1 * size, size, p.2⟩

theorem has_iff {size b x : Nat} {v : α} (hs : 0 < size) : (⟨b * size, size, v⟩ : Range α).has x ↔ x / size = b := by
  unfold Range.has
  simp only
  rw [Nat.div_eq_iff hs]
  constructor <;> (intro h; omega)

theorem apart_iff {size b c : Nat} {v w : α} (hs : 0 < size) :
    (⟨b * size, size, v⟩ : Range α).apart ⟨c * size, size, w⟩ ↔ b ≠ c := by
  unfold Range.apart
  simp only [has_iff hs]
  constructor
  · intro h e
    exact h (b * size) ⟨Nat.mul_div_cancel _ hs, by rw [Nat.mul_div_cancel _ hs, e]⟩
  · intro h x hx; exact h (hx.1.symm.trans hx.2)

/-- A block is accepted if it is inside and not there yet, and otherwise rejected. -/
theorem insert_number {t : Tree α} {l : List (Nat × α)} {size : Nat} (hh : Holds t (blocksOf size l)) (hb : BlockOk t) {b : Nat} {v : α}
    (hs : size = t.leafSize * t.perNode) (hadd : b * size + size < 2 ^ 64) :
    ((b * size + size ≤ t.dataSize ∧ b ∉ l.map Prod.fst) ∧ ∃ t', insert t (b * size) size v = .ok t' ∧
      Holds t' (blocksOf size (l ++ [(b, v)])) ∧ BlockOk t' ∧ t'.dataSize = t.dataSize ∧ t'.perNode = t.perNode ∧
      t'.leafSize = t.leafSize) ∨
    (¬ (b * size + size ≤ t.dataSize ∧ b ∉ l.map Prod.fst) ∧ insert t (b * size) size v = .err) := by
  have hsp : 0 < size := by rw [hs]; exact Nat.mul_pos hh.leaf hb.1
  have hap : (∀ r ∈ blocksOf size l, r.apart ⟨b * size, size, v⟩) ↔ b ∉ l.map Prod.fst := by
    unfold blocksOf
    simp only [List.mem_map, not_exists, not_and, forall_exists_index, and_imp]
    constructor
    · intro h p hp e
      exact (apart_iff hsp).1 (h _ p hp rfl) e
    · rintro h r p hp rfl
      exact (apart_iff hsp).2 (h p hp)
  by_cases hc : b * size + size ≤ t.dataSize ∧ b ∉ l.map Prod.fst
  · left
    obtain ⟨t', e, h⟩ := insert_block hh hb (v := v) hs hc.1 (Nat.dvd_mul_left _ _) (hap.2 hc.2)
    refine ⟨hc, t', e, ?_, h.2⟩
    have h := h.1
    unfold blocksOf at h ⊢
    rw [List.map_append]
    exact h
  · right
    refine ⟨hc, ?_⟩
    cases h : insert t (b * size) size v with
    | err => rfl
    | panic => exact absurd h (insert_block_ne_panic hh hb hs hadd (Nat.dvd_mul_left _ _))
    | ok t' =>
      have := insert_block_sound hh hb hs (Nat.dvd_mul_left _ _) h
      exact absurd ⟨this.1, hap.1 this.2⟩ hc

/-- The block found at a position. -/
theorem get_number {t : Tree α} {l : List (Nat × α)} {size : Nat} (hh : Holds t (blocksOf size l)) (hs : 0 < size) {x : Nat}
    (hx : x < t.dataSize) : ∃ a, get t x = .ok a ∧ (∀ v, a = some v ↔ (x / size, v) ∈ l) ∧ (a = none ↔ x / size ∉ l.map Prod.fst) := by
  obtain ⟨a, h1, h2⟩ := get_holds hh hx
  have hn : ∀ {p : Nat × α}, p ∈ l → x / size = p.1 → Answer (blocksOf size l) x (some p.2) := by
    intro p hp e
    exact ⟨⟨p.1 * size, size, p.2⟩, List.mem_map.2 ⟨p, hp, rfl⟩, (has_iff hs).2 e, rfl⟩
  refine ⟨a, h1, fun v => ⟨?_, ?_⟩, ⟨?_, ?_⟩⟩
  · rintro rfl
    obtain ⟨r, hr, hx', rfl⟩ := h2
    obtain ⟨p, hp, rfl⟩ := List.mem_map.1 hr
    rw [(has_iff hs).1 hx']; exact hp
  · intro h
    exact answer_unique hh.apart h2 (hn h rfl)
  · rintro rfl h
    obtain ⟨p, hp, e⟩ := List.mem_map.1 h
    exact h2 _ (List.mem_map.2 ⟨p, hp, rfl⟩) ((has_iff hs).2 e.symm)
  · intro h
    cases a with
    | none => rfl
    | some v =>
      obtain ⟨r, hr, hx', rfl⟩ := h2
      obtain ⟨p, hp, rfl⟩ := List.mem_map.1 hr
      exact absurd (List.mem_map.2 ⟨p, hp, ((has_iff hs).1 hx').symm⟩) h

/-! ## Trees of equal blocks, each a leaf value -/

/-- A tree used for blocks of one leaf value only. -/
def LeafOk (t : Tree α) : Prop := 1 ≤ t.perNode ∧ t.perNode * t.leafSize < 2 ^ 64 ∧ t.dataSize < 2 ^ 64 ∧ (t.perNode = 1 ∨ UniTree 0 t)

theorem new_leafOk {d p l : Nat} (hp : 1 ≤ p) (hm : p * l < 2 ^ 64) (hd : d < 2 ^ 64) : LeafOk (new d p l : Tree α) :=
  ⟨hp, hm, hd, Or.inr (new_uniform d p l 0)⟩

/-- Every leaf value that is free can be inserted. -/
theorem insert_leaf {t : Tree α} {rs : List (Range α)} (hh : Holds t rs) (hb : LeafOk t) {off size : Nat} {v : α}
    (hs : size = t.leafSize) (hin : off + size ≤ t.dataSize) (hoff : size ∣ off)
    (hap : ∀ r ∈ rs, r.apart ⟨off, size, v⟩) :
    ∃ t', insert t off size v = .ok t' ∧ Holds t' (rs ++ [⟨off, size, v⟩]) ∧ LeafOk t' ∧ t'.dataSize = t.dataSize ∧
      t'.perNode = t.perNode ∧ t'.leafSize = t.leafSize := by
  obtain ⟨hp, hm, h64, hu⟩ := hb
  have hl := hh.leaf
  rcases Nat.lt_or_ge 1 t.perNode with h1 | h1
  · have hu : UniTree 0 t := by
      rcases hu with h | h
      · omega
      · exact h
    have hs' : size = t.leafSize * t.perNode ^ 0 := by rw [Nat.pow_zero, Nat.mul_one]; exact hs
    rw [hs'] at hin hoff hap ⊢
    obtain ⟨t', e, h, u, d1, d2, d3⟩ := insert_uniform hh (j := 0) (v := v) (by omega) hm hu hin h64 hoff hap
    exact ⟨t', e, h, ⟨by omega, by rw [d2, d3]; exact hm, by omega, Or.inr u⟩, d1, d2, d3⟩
  · have hd : t.leafSize ∣ size := hs ▸ Nat.dvd_refl _
    obtain ⟨t', e, h, d1, d2, d3⟩ := insert_flat hh (v := v) h1 (by omega) hin h64 (Nat.dvd_trans hd hoff) hd hap
    exact ⟨t', e, h, ⟨by omega, by rw [d2, d3]; exact hm, by omega, Or.inl (by omega)⟩, d1, d2, d3⟩

end Keramics.BlockTree
