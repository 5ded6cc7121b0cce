import Verif.Model.BlockTree
import Verif.Spec.BlockTree
import Verif.Base.Tactics
import Verif.Base.Sat

/-! Lemmas about the block tree. -/

namespace Keramics.BlockTree
open Keramics.Spec.BlockTree

variable {α : Type}

theorem divCeil_eq_one {s e : Nat} (hs : 0 < s) (he : s ≤ e) : divCeil s e = 1 := by
  unfold divCeil
  rw [Nat.div_eq_iff (by omega)]
  omega

theorem divCeil_ge_two {s e : Nat} (he0 : 0 < e) (he : e < s) : 2 ≤ divCeil s e := by
  unfold divCeil
  rw [Nat.le_div_iff_mul_le he0]
  omega

theorem le_divCeil_mul {a b : Nat} (hb : 0 < b) : a ≤ b * divCeil a b := by
  unfold divCeil
  have h1 := Nat.div_add_mod (a + b - 1) b
  have h2 := Nat.mod_lt (a + b - 1) hb
  omega

/-- The value a node holds for an offset. -/
def look : Node α → Nat → Option α
  | .absent, _ => none
  | .branch o e n sub, x => if (x - o) / e < n then look (sub ((x - o) / e)) x else none
  | .leaf o e n value, x => if (x - o) / e < n then value ((x - o) / e) else none

/-- The node has elements of level `k`, starts at `o` and has `n` elements. -/
def wf (p l : Nat) : Node α → Nat → Nat → Nat → Prop
  | .absent, _, _, _ => True
  | .branch o e m sub, k, o', n => o = o' ∧ e = l * p ^ k ∧ m = n ∧ 1 ≤ k ∧ 2 ≤ p ∧
      ∀ i, i < n → wf p l (sub i) (k - 1) (o + i * e) p
  | .leaf o e m _, k, o', n => o = o' ∧ e = l * p ^ k ∧ m = n

/-- All leaf nodes have elements of level at most `j`, all branch nodes of a higher one. -/
def Uni (j : Nat) : Node α → Nat → Prop
  | .absent, _ => True
  | .branch _ _ n sub, k => j < k ∧ ∀ i, i < n → Uni j (sub i) (k - 1)
  | .leaf _ _ _ _, k => k ≤ j

/-- Positions and elements of a node. -/
theorem div_lt_iff {x o e n : Nat} (he : 0 < e) (hx : o ≤ x) : (x - o) / e < n ↔ x < o + e * n := by
  rw [Nat.div_lt_iff_lt_mul he, Nat.mul_comm]
  omega

theorem pow_pred {l p k : Nat} (hk : 1 ≤ k) : l * p ^ (k - 1) * p = l * p ^ k := by
  rw [Nat.mul_assoc, ← Nat.pow_succ]
  congr 2
  omega

theorem getNode_eq {p l : Nat} (hp : 0 < l) {k o n x : Nat} (node : Node α) (hpow : 0 < p ^ k) (hw : wf p l node k o n)
    (h1 : o ≤ x) (h2 : x < o + l * p ^ k * n) : getNode x node = .ok (look node x) := by
  induction node generalizing k o n with
  | absent => rfl
  | branch o' e m sub ih =>
    obtain ⟨rfl, rfl, rfl, hk, hp2, hsub⟩ := hw
    have he : 0 < l * p ^ k := Nat.mul_pos hp hpow
    have hi := (div_lt_iff he h1).2 h2
    unfold getNode look
    rw [R.check_true (by omega), R.ok_bind, R.subU_ok h1, R.ok_bind]
    simp only
    rw [R.check_true hi, R.ok_bind, if_pos hi]
    have hd := Nat.div_add_mod (x - o') (l * p ^ k)
    have hm := Nat.mod_lt (x - o') he
    refine ih _ (Nat.pow_pos (by omega)) (hsub _ hi) ?_ ?_
    · rw [Nat.mul_comm]; omega
    · rw [pow_pred hk, Nat.mul_comm _ (l * p ^ k)]
      omega
  | leaf o' e m value =>
    obtain ⟨rfl, rfl, rfl⟩ := hw
    have he : 0 < l * p ^ k := Nat.mul_pos hp hpow
    have hi := (div_lt_iff he h1).2 h2
    unfold getNode look
    rw [R.check_true (by omega), R.ok_bind, R.subU_ok h1, R.ok_bind]
    simp only
    rw [if_pos hi, if_pos hi]
    rfl

/-! ## The loops -/

theorem setValues_ok {n : Nat} {v : α} {first number : Nat} {f g : Nat → Option α}
    (h : setValues n v (List.range' first number) f = .ok g) :
    (0 < number → first + number ≤ n) ∧ (∀ i, first ≤ i → i < first + number → f i = none) ∧
      ∀ i, g i = if first ≤ i ∧ i < first + number then some v else f i := by
  induction number generalizing first f with
  | zero =>
    simp only [List.range'_zero, setValues, R.ok.injEq] at h
    subst h
    refine ⟨by omega, by intros; omega, fun i => ?_⟩
    rw [if_neg (by omega)]
  | succ number ih =>
    rw [List.range'_succ, setValues] at h
    obtain ⟨_, h1, h⟩ := R.bind_eq_ok.1 h
    obtain ⟨_, h2, h⟩ := R.bind_eq_ok.1 h
    rw [R.check_eq_ok] at h1
    rw [R.require_eq_ok, Option.isNone_iff_eq_none] at h2
    obtain ⟨q1, q2, q3⟩ := ih h
    refine ⟨fun _ => ?_, fun i hi1 hi2 => ?_, fun i => ?_⟩
    · rcases Nat.eq_zero_or_pos number with h0 | h0
      · omega
      · have := q1 h0; omega
    · by_cases hi : i = first
      · rw [hi]; exact h2
      · have := q2 i (by omega) (by omega)
        simpa [update, hi] using this
    · rw [q3 i]
      by_cases hi : i = first
      · subst hi
        rw [if_neg (by omega), if_pos (by omega)]
        simp [update]
      · simp only [update, if_neg hi]
        by_cases hc : first ≤ i ∧ i < first + (number + 1)
        · rw [if_pos hc, if_pos (by omega)]
        · rw [if_neg hc, if_neg (by omega)]

theorem setValues_of_free {n : Nat} {v : α} {first number : Nat} {f : Nat → Option α}
    (hn : first + number ≤ n) (hf : ∀ i, first ≤ i → i < first + number → f i = none) :
    ∃ g, setValues n v (List.range' first number) f = .ok g := by
  induction number generalizing first f with
  | zero => exact ⟨f, rfl⟩
  | succ number ih =>
    rw [List.range'_succ, setValues, R.check_true (by omega), R.ok_bind,
      R.require_true (by rw [hf first (by omega) (by omega)]; rfl), R.ok_bind]
    apply ih (by omega)
    intro i h1 h2
    unfold update
    rw [if_neg (by omega)]
    exact hf i (by omega) (by omega)

/-! ## The element sizes -/

theorem grow_eq {l p k : Nat} (hl : 0 < l) (hp : 2 ≤ p) (hk : 1 ≤ k) (j fuel : Nat) (hj : j < k) (hf : k ≤ j + 1 + fuel) :
    grow (l * p ^ k) p fuel (l * p ^ j) = .ok (l * p ^ (k - 1)) := by
  induction fuel generalizing j with
  | zero =>
    have hjk : j = k - 1 := by omega
    unfold grow
    have h1 : 0 < p ^ j := Nat.pow_pos (by omega)
    rw [if_neg (Nat.mul_pos hl h1).ne', if_neg, hjk]
    have hdiv : l * p ^ k / (l * p ^ j) = p := by
      rw [Nat.mul_div_mul_left _ _ hl, Nat.pow_div (by omega) (by omega), show k - j = 1 by omega, Nat.pow_one]
    omega
  | succ fuel ih =>
    unfold grow
    have h1 : 0 < p ^ j := Nat.pow_pos (by omega)
    have hdiv : l * p ^ k / (l * p ^ j) = p ^ (k - j) := by
      rw [Nat.mul_div_mul_left _ _ hl, Nat.pow_div (by omega) (by omega)]
    rw [if_neg (Nat.mul_pos hl h1).ne', hdiv]
    by_cases hjk : j = k - 1
    · rw [if_neg, hjk]
      rw [show k - j = 1 by omega, Nat.pow_one]; omega
    · have hlt : p < p ^ (k - j) := by
        calc p = p ^ 1 := (Nat.pow_one p).symm
          _ < p ^ (k - j) := Nat.pow_lt_pow_right (by omega) (by omega)
      rw [if_pos hlt]
      simp only
      rw [Nat.mul_assoc, ← Nat.pow_succ]
      exact ih (j + 1) (by omega) (by omega)

theorem lt_two_pow_le {l p k : Nat} (hl : 0 < l) (hp : 2 ≤ p) : k < l * p ^ k := by
  calc k < 2 ^ k := Nat.lt_two_pow_self
    _ ≤ p ^ k := Nat.pow_le_pow_left hp k
    _ ≤ l * p ^ k := Nat.le_mul_of_pos_left _ hl

theorem grow_node {l p k : Nat} (hl : 0 < l) (hp : 2 ≤ p) (hk : 1 ≤ k) :
    grow (l * p ^ k) p (l * p ^ k) l = .ok (l * p ^ (k - 1)) := by
  have := grow_eq hl hp hk 0 (l * p ^ k) (by omega) (by have := lt_two_pow_le (k := k) hl hp; omega)
  simpa using this

theorem grow_root {l p d fuel : Nat} (hl : 0 < l) (hp : 2 ≤ p) (j : Nat) (hf : d < l * p ^ j + fuel * 1 ∨ d < fuel + j) :
    ∃ k, grow d p fuel (l * p ^ j) = .ok (l * p ^ k) ∧ d / (l * p ^ k) ≤ p ∧ (k = j ∨ l * p ^ k < d) := by
  induction fuel generalizing j with
  | zero =>
    have h1 : 0 < p ^ j := Nat.pow_pos (by omega)
    have hlt := lt_two_pow_le (k := j) hl hp
    refine ⟨j, ?_, ?_, Or.inl rfl⟩
    · unfold grow
      rw [if_neg (Nat.mul_pos hl h1).ne', if_neg]
      rw [Nat.div_eq_of_lt (by omega)]; omega
    · rw [Nat.div_eq_of_lt (by omega)]; omega
  | succ fuel ih =>
    have h1 : 0 < p ^ j := Nat.pow_pos (by omega)
    have hpos := Nat.mul_pos hl h1
    unfold grow
    rw [if_neg hpos.ne']
    by_cases hc : d / (l * p ^ j) > p
    · rw [if_pos hc]
      simp only
      have hlt : l * p ^ j * p < d := by
        have := Nat.div_mul_le_self d (l * p ^ j)
        calc l * p ^ j * p < l * p ^ j * (d / (l * p ^ j)) := Nat.mul_lt_mul_of_pos_left hc hpos
          _ ≤ d := by rw [Nat.mul_comm]; exact this
      rw [Nat.mul_assoc, ← Nat.pow_succ]
      have hlt2 := lt_two_pow_le (k := j) hl hp
      have hge : l * p ^ j + 1 ≤ l * p ^ (j + 1) := by
        rw [Nat.pow_succ, ← Nat.mul_assoc]
        have : l * p ^ j * 2 ≤ l * p ^ j * p := Nat.mul_le_mul_left _ hp
        omega
      obtain ⟨k, e, h2, h3⟩ := ih (j + 1) (by omega)
      refine ⟨k, e, h2, ?_⟩
      rcases h3 with rfl | h3
      · right; rw [Nat.pow_succ, ← Nat.mul_assoc]; exact hlt
      · exact Or.inr h3
    · rw [if_neg hc]
      exact ⟨j, rfl, by omega, Or.inl rfl⟩

/-! ## Insertion into a node -/

/-- The offset is a multiple of every element size of the tree up to the size of the range. -/
def Aligned (p l offset size : Nat) : Prop := ∀ k, 0 < l * p ^ k → l * p ^ k ≤ size → l * p ^ k ∣ offset

theorem insertNode_leaf_fresh (p l off size : Nat) (v : α) (fuel o e : Nat) (f : Nat → Option α) :
    insertNode p l off size v fuel (.leaf o e 0 f) = insertNode p l off size v fuel (.leaf o e p f) := by
  cases fuel with
  | zero => rfl
  | succ fuel =>
    unfold insertNode
    by_cases hp : p = 0
    · subst hp; rfl
    · simp only [if_neg hp, ↓reduceIte]

theorem insertNode_branch_fresh (p l off size : Nat) (v : α) (fuel o e : Nat) (f : Nat → Node α) :
    insertNode p l off size v fuel (.branch o e 0 f) = insertNode p l off size v fuel (.branch o e p f) := by
  cases fuel with
  | zero => rfl
  | succ fuel =>
    unfold insertNode
    by_cases hp : p = 0
    · subst hp; rfl
    · simp only [if_neg hp, ↓reduceIte]

/-- What an insertion does to a node. -/
structure Inserted (p l k o n off size : Nat) (v : α) (before after : Node α) : Prop where
  present : after ≠ .absent
  wf : wf p l after k o n
  low : o ≤ off
  high : off + size ≤ o + l * p ^ k * n
  free : ∀ x, off ≤ x → x < off + size → look before x = none
  same : ∀ x, o ≤ x → x < o + l * p ^ k * n → look after x = if off ≤ x ∧ x < off + size then some v else look before x

theorem mem_elements {e o a c x : Nat} (he : 0 < e) (hx : o ≤ x) :
    (a ≤ (x - o) / e ∧ (x - o) / e < a + c) ↔ (o + e * a ≤ x ∧ x < o + e * a + e * c) := by
  rw [Nat.le_div_iff_mul_le he, Nat.div_lt_iff_lt_mul he, Nat.mul_comm a e, Nat.mul_comm (a + c) e, Nat.mul_add]
  omega

theorem subU_eq_ok {a b d : Nat} : R.subU a b = .ok d ↔ b ≤ a ∧ d = a - b := by
  unfold R.subU
  split <;> simp_all [eq_comm]

theorem setNodes_two {n : Nat} {fresh : Nat → Node α} {step : Node α → R (Node α)} {i j : Nat} {is : List Nat}
    {sub : Nat → Node α} (hij : j ≠ i) {g : Nat → Node α}
    (h : setNodes n fresh step (i :: j :: is) sub = .ok g) :
    j < n ∧ ∃ child', step (orFresh (sub j) (fresh j)) = .ok child' := by
  unfold setNodes at h
  obtain ⟨_, _, h⟩ := R.bind_eq_ok.1 h
  obtain ⟨c, _, h⟩ := R.bind_eq_ok.1 h
  unfold setNodes at h
  obtain ⟨_, h1, h⟩ := R.bind_eq_ok.1 h
  obtain ⟨c', h2, h⟩ := R.bind_eq_ok.1 h
  rw [R.check_eq_ok] at h1
  refine ⟨h1, c', ?_⟩
  rw [← h2]
  simp only [update, if_neg hij]

theorem insertNode_low {p l off size : Nat} {v : α} {fuel : Nat} {node node' : Node α}
    (hok : insertNode p l off size v fuel node = .ok node') {k o n : Nat} (hw : wf p l node k o n) : o ≤ off := by
  cases fuel with
  | zero => cases hok
  | succ fuel =>
    cases node with
    | absent => cases hok
    | leaf o' e m f =>
      obtain ⟨rfl, -, -⟩ := hw
      unfold insertNode at hok
      obtain ⟨_, _, hok⟩ := R.bind_eq_ok.1 hok
      obtain ⟨_, _, hok⟩ := R.bind_eq_ok.1 hok
      obtain ⟨d, h2, hok⟩ := R.bind_eq_ok.1 hok
      exact (subU_eq_ok.1 h2).1
    | branch o' e m f =>
      obtain ⟨rfl, -, -⟩ := hw
      unfold insertNode at hok
      obtain ⟨_, _, hok⟩ := R.bind_eq_ok.1 hok
      obtain ⟨d, h2, hok⟩ := R.bind_eq_ok.1 hok
      exact (subU_eq_ok.1 h2).1

/-- The node for index `i`, when the loop has made sure that there is one, may be taken to have its
full length. -/
theorem child_of {p l k o e : Nat} {sub : Nat → Node α} (hp : 2 ≤ p) (hk : 1 ≤ k) (size i n : Nat)
    (hsize : l ≤ size) (hsub : wf p l (sub i) (k - 1) (o + i * e) p) (off : Nat) (v : α) (fuel : Nat) :
    ∃ child, insertNode p l off size v fuel (orFresh (sub i)
        (if l * p ^ (k - 1) ≤ size then Node.leaf (o + i * e) (l * p ^ (k - 1)) 0 fun _ => none
          else Node.branch (o + i * e) (l * p ^ (k - 1)) 0 fun _ => .absent)) = insertNode p l off size v fuel child ∧
      wf p l child (k - 1) (o + i * e) p ∧ (∀ x, look child x = look (sub i) x) ∧ child ≠ .absent ∧
      ∀ j, Uni j (sub i) (k - 1) → (l * p ^ (k - 1) ≤ size → k - 1 ≤ j) → (¬l * p ^ (k - 1) ≤ size → j < k - 1) →
        Uni j child (k - 1) := by
  cases hc : sub i with
  | absent =>
    simp only [orFresh]
    by_cases hle : l * p ^ (k - 1) ≤ size
    · rw [if_pos hle, insertNode_leaf_fresh]
      refine ⟨_, rfl, ⟨rfl, rfl, rfl⟩, fun x => ?_, by simp, fun j _ h _ => h hle⟩
      simp [look]
    · rw [if_neg hle, insertNode_branch_fresh]
      refine ⟨_, rfl, ⟨rfl, rfl, rfl, ?_, hp, fun i _ => trivial⟩, fun x => ?_, by simp,
        fun j _ _ h => ⟨h hle, fun _ _ => trivial⟩⟩
      · rcases Nat.eq_zero_or_pos (k - 1) with h | h
        · rw [h] at hle; simp at hle; omega
        · exact h
      · simp [look]
  | leaf _ _ _ _ => rw [hc] at hsub; exact ⟨_, rfl, hsub, fun _ => rfl, by simp [orFresh], fun _ h _ _ => h⟩
  | branch _ _ _ _ => rw [hc] at hsub; exact ⟨_, rfl, hsub, fun _ => rfl, by simp [orFresh], fun _ h _ _ => h⟩

theorem insertNode_sound {p l off size : Nat} {v : α} (hl : 0 < l) (hs : l ≤ size) (ha : Aligned p l off size)
    (fuel : Nat) {k o n : Nat} (hn : 0 < n) (hpk : 0 < p ^ k) (hdvd : l * p ^ k ∣ o) (node node' : Node α)
    (hw : wf p l node k o n)
    (hok : insertNode p l off size v fuel node = .ok node') : Inserted p l k o n off size v node node' := by
  induction fuel generalizing k o n node node' with
  | zero => cases hok
  | succ fuel ih =>
    have he : 0 < l * p ^ k := Nat.mul_pos hl hpk
    cases node with
    | absent => cases hok
    | leaf o' e m f =>
      obtain ⟨rfl, rfl, rfl⟩ := hw
      unfold insertNode at hok
      rw [R.check_true (by omega), R.ok_bind] at hok
      obtain ⟨_, h1, hok⟩ := R.bind_eq_ok.1 hok
      rw [R.require_eq_ok] at h1
      obtain ⟨d, h2, hok⟩ := R.bind_eq_ok.1 hok
      obtain ⟨hle, rfl⟩ := subU_eq_ok.1 h2
      simp only [if_neg hn.ne'] at hok
      obtain ⟨g, h3, hok⟩ := R.bind_eq_ok.1 hok
      simp only [R.pure_eq, R.ok.injEq] at hok
      subst hok
      obtain ⟨q1, q2, q3⟩ := setValues_ok h3
      -- the range is made of whole elements
      obtain ⟨c, hc⟩ := Nat.dvd_of_mod_eq_zero h1
      have hc0 : 0 < c := by rcases Nat.eq_zero_or_pos c with h | h; (subst h; omega); exact h
      have hdiv : size / (l * p ^ k) = c := by rw [hc, Nat.mul_div_cancel_left _ he]
      rw [hdiv] at q1 q2 q3
      have hesize : l * p ^ k ≤ size := by rw [hc]; exact Nat.le_mul_of_pos_right _ hc0
      have hoff := ha k he hesize
      generalize hE : l * p ^ k = E at *
      obtain ⟨a, ha'⟩ := Nat.dvd_sub hoff hdvd
      have hfirst : (off - o') / E = a := by rw [ha', Nat.mul_div_cancel_left _ he]
      rw [hfirst] at q1 q2 q3
      have hoff' : off = o' + E * a := by omega
      have hhigh : off + size ≤ o' + E * m := by
        have := Nat.mul_le_mul_left E (q1 hc0)
        rw [Nat.mul_add] at this
        omega
      refine ⟨by simp, ⟨rfl, hE.symm, rfl⟩, hle, hE ▸ hhigh, fun x hx1 hx2 => ?_, fun x hx1 hx2 => ?_⟩
      · have hm := (mem_elements (a := a) (c := c) he (show o' ≤ x by omega)).2 (by omega)
        unfold look
        rw [q2 _ hm.1 hm.2]
        split <;> rfl
      · have hin := (div_lt_iff he hx1).2 (hE ▸ hx2)
        have hm := mem_elements (a := a) (c := c) he hx1
        simp only [look]
        rw [if_pos hin, if_pos hin, q3]
        rw [hoff', hc]
        by_cases hc : a ≤ (x - o') / E ∧ (x - o') / E < a + c
        · rw [if_pos hc, if_pos (hm.1 hc)]
        · rw [if_neg hc, if_neg (fun h => hc (hm.2 h))]
    | branch o' e m sub =>
      obtain ⟨rfl, rfl, rfl, hk, hp, hsub⟩ := hw
      have hlow := insertNode_low hok (k := k) (n := m) ⟨rfl, rfl, rfl, hk, hp, hsub⟩
      unfold insertNode at hok
      simp only [if_neg hn.ne'] at hok
      rw [R.check_true (by omega), R.ok_bind, R.subU_ok hlow, R.ok_bind, grow_node hl hp hk, R.ok_bind] at hok
      obtain ⟨g, h3, hok⟩ := R.bind_eq_ok.1 hok
      simp only [R.pure_eq, R.ok.injEq] at hok
      subst hok
      have hchild := fun i hi => child_of (o := o') (e := l * p ^ k) (sub := sub) hp hk size i m hs (hsub i hi) off v fuel
      have hpp := pow_pred (l := l) (p := p) hk
      have hppos : 0 < p ^ (k - 1) := Nat.pow_pos (by omega)
      have hd := Nat.div_add_mod (off - o') (l * p ^ k)
      have hm := Nat.mod_lt (off - o') he
      have hdvd' : ∀ i, l * p ^ (k - 1) ∣ o' + i * (l * p ^ k) := by
        intro i
        have h1 : l * p ^ (k - 1) ∣ l * p ^ k := by rw [← hpp]; exact Nat.dvd_mul_right _ _
        exact Nat.dvd_add (Nat.dvd_trans h1 hdvd) (Nat.dvd_trans h1 (Nat.dvd_mul_left _ _))
      generalize hE : l * p ^ k = E at *
      generalize hfi : (off - o') / E = first at *
      -- only one sub node is concerned
      have hsize : size ≤ E := by
        by_contra hlt
        have h2 := divCeil_ge_two he (show E < size by omega)
        obtain ⟨r, hr⟩ : ∃ r, divCeil size E = r + 2 := ⟨divCeil size E - 2, by omega⟩
        rw [hr, List.range'_succ, List.range'_succ] at h3
        obtain ⟨hj, c', hc'⟩ := setNodes_two (by omega) h3
        obtain ⟨child, e1, w1, _, _⟩ := hchild (first + 1) hj
        rw [e1] at hc'
        have := insertNode_low hc' w1
        rw [Nat.mul_comm, Nat.mul_add] at this
        omega
      rw [divCeil_eq_one (by omega) hsize, show List.range' first 1 = [first] from rfl] at h3
      unfold setNodes at h3
      obtain ⟨_, h4, h3⟩ := R.bind_eq_ok.1 h3
      rw [R.check_eq_ok] at h4
      obtain ⟨c', h5, h3⟩ := R.bind_eq_ok.1 h3
      unfold setNodes at h3
      simp only [R.ok.injEq] at h3
      subst h3
      obtain ⟨child, e1, w1, hlook, _⟩ := hchild first h4
      rw [e1] at h5
      have hI := ih (by omega) hppos (hdvd' first) child c' w1 h5
      have hcover : l * p ^ (k - 1) * p = E := by rw [hpp]
      obtain ⟨i1, i2, i3, i4, i5, i6⟩ := hI
      rw [hcover] at i4 i6
      have hfe : first * E = E * first := Nat.mul_comm _ _
      have hfn : E * first + E ≤ E * m := by
        have := Nat.mul_le_mul_left E (show first + 1 ≤ m from h4)
        rwa [Nat.mul_add, Nat.mul_one] at this
      have hidx : ∀ x, o' ≤ x → ((x - o') / E = first ↔ (o' + E * first ≤ x ∧ x < o' + E * first + E)) := by
        intro x hx
        have := mem_elements (a := first) (c := 1) he hx
        rw [Nat.mul_one] at this
        rw [← this]
        omega
      refine ⟨by simp, ⟨rfl, hE.symm, rfl, hk, hp, fun i hi => ?_⟩, hlow, by rw [hE]; omega, fun x hx1 hx2 => ?_, fun x hx1 hx2 => ?_⟩
      · unfold update
        split
        · next h => rw [h]; exact i2
        · exact hsub i hi
      · simp only [look]
        have : (x - o') / E = first := (hidx x (by omega)).2 (by omega)
        rw [this, if_pos h4, ← hlook]
        exact i5 x hx1 hx2
      · have hin := (div_lt_iff he hx1).2 (hE ▸ hx2)
        simp only [look]
        rw [if_pos hin, if_pos hin]
        by_cases hf : (x - o') / E = first
        · rw [hf]
          have hr := (hidx x hx1).1 hf
          simp only [update, if_true]
          rw [i6 x (by omega) (by omega), hlook]
        · simp only [update, if_neg hf]
          rw [if_neg]
          intro hc
          exact hf ((hidx x hx1).2 (by omega))

/-! ## When an insertion succeeds -/

theorem insertNode_leaf_ok {p l off size : Nat} {v : α} (hl : 0 < l) (fuel : Nat) {k o n : Nat} (hn : 0 < n)
    (hpk : 0 < p ^ k) (f : Nat → Option α) (hsize : l * p ^ k ∣ size) (hoff : l * p ^ k ∣ off - o) (ho : o ≤ off)
    (hhigh : off + size ≤ o + l * p ^ k * n)
    (hfree : ∀ x, off ≤ x → x < off + size → look (.leaf o (l * p ^ k) n f) x = none) :
    ∃ g, insertNode p l off size v (fuel + 1) (.leaf o (l * p ^ k) n f) = .ok (.leaf o (l * p ^ k) n g) := by
  have he : 0 < l * p ^ k := Nat.mul_pos hl hpk
  unfold insertNode
  generalize l * p ^ k = E at *
  obtain ⟨c, rfl⟩ := hsize
  obtain ⟨a, ha⟩ := hoff
  rw [R.check_true (by omega), R.ok_bind, R.require_true (by simp), R.ok_bind, R.subU_ok ho, R.ok_bind]
  simp only [if_neg hn.ne']
  rw [ha, Nat.mul_div_cancel_left _ he, Nat.mul_div_cancel_left _ he]
  have hac : a + c ≤ n := by
    apply Nat.le_of_mul_le_mul_left _ he
    rw [Nat.mul_add]; omega
  obtain ⟨g, hg⟩ := setValues_of_free (v := v) (f := f) hac (by
    intro i h1 h2
    have h3 : E * i < E * (a + c) := Nat.mul_lt_mul_of_pos_left h2 he
    have h4 : E * a ≤ E * i := Nat.mul_le_mul_left E h1
    rw [Nat.mul_add] at h3
    have h := hfree (o + E * i) (by omega) (by omega)
    unfold look at h
    rwa [show o + E * i - o = E * i by omega, Nat.mul_div_cancel_left _ he, if_pos (by omega)] at h)
  rw [hg, R.ok_bind]
  exact ⟨g, rfl⟩

theorem insertNode_uniform {p l off j : Nat} {v : α} (hl : 0 < l) (hp : 2 ≤ p) (hoff : l * p ^ j ∣ off)
    (fuel : Nat) {k o n : Nat} (hn : 0 < n) (hdvd : l * p ^ k ∣ o) (node : Node α) (hpres : node ≠ .absent)
    (hw : wf p l node k o n) (hu : Uni j node k) (hf : k < fuel) (ho : o ≤ off)
    (hhigh : off + l * p ^ j ≤ o + l * p ^ k * n)
    (hfree : ∀ x, off ≤ x → x < off + l * p ^ j → look node x = none) :
    ∃ node', insertNode p l off (l * p ^ j) v fuel node = .ok node' ∧ Uni j node' k := by
  induction fuel generalizing k o n node with
  | zero => omega
  | succ fuel ih =>
    have hpk : 0 < p ^ k := Nat.pow_pos (by omega)
    have hpj : 0 < p ^ j := Nat.pow_pos (by omega)
    have hS : 0 < l * p ^ j := Nat.mul_pos hl hpj
    have he : 0 < l * p ^ k := Nat.mul_pos hl hpk
    cases node with
    | absent => exact absurd rfl hpres
    | leaf o' e m f =>
      obtain ⟨rfl, rfl, rfl⟩ := hw
      have hkj : l * p ^ k ∣ l * p ^ j := Nat.mul_dvd_mul_left l (Nat.pow_dvd_pow p hu)
      obtain ⟨g, hg⟩ := insertNode_leaf_ok (v := v) hl fuel hn hpk f hkj
        (Nat.dvd_sub (Nat.dvd_trans hkj hoff) hdvd) ho hhigh hfree
      exact ⟨_, hg, hu⟩
    | branch o' e m sub =>
      obtain ⟨rfl, rfl, rfl, hk, _, hsub⟩ := hw
      obtain ⟨hjk, husub⟩ := hu
      have hjd : l * p ^ j ∣ l * p ^ k := Nat.mul_dvd_mul_left l (Nat.pow_dvd_pow p (by omega))
      have hjd1 : l * p ^ j ∣ l * p ^ (k - 1) := Nat.mul_dvd_mul_left l (Nat.pow_dvd_pow p (by omega))
      have hpp := pow_pred (l := l) (p := p) hk
      have hd := Nat.div_add_mod (off - o') (l * p ^ k)
      have hm := Nat.mod_lt (off - o') he
      have hroom : (off - o') % (l * p ^ k) + l * p ^ j ≤ l * p ^ k := by
        have h1 : l * p ^ j ∣ (off - o') % (l * p ^ k) :=
          (Nat.dvd_mod_iff hjd).2 (Nat.dvd_sub hoff (Nat.dvd_trans hjd hdvd))
        obtain ⟨u, hu⟩ := h1
        obtain ⟨w, hw⟩ := hjd
        rw [hu] at hm ⊢
        rw [hw] at hm ⊢
        rw [← Nat.mul_succ]
        apply Nat.mul_le_mul_left
        exact Nat.lt_of_mul_lt_mul_left hm
      have hfirst : (off - o') / (l * p ^ k) < m := (div_lt_iff he ho).2 (by omega)
      have hdvd' : l * p ^ (k - 1) ∣ o' + (off - o') / (l * p ^ k) * (l * p ^ k) := by
        have h1 : l * p ^ (k - 1) ∣ l * p ^ k := by rw [← hpp]; exact Nat.dvd_mul_right _ _
        exact Nat.dvd_add (Nat.dvd_trans h1 hdvd) (Nat.dvd_trans h1 (Nat.dvd_mul_left _ _))
      have hSk : l * p ^ j ≤ l * p ^ k := Nat.le_of_dvd he hjd
      have hle1 : l * p ^ (k - 1) ≤ l * p ^ j ↔ k - 1 = j := by
        constructor
        · intro h
          have h1 := Nat.le_of_mul_le_mul_left h hl
          have h2 := (Nat.pow_le_pow_iff_right (show 1 < p by omega)).1 h1
          omega
        · intro h; rw [h]
      unfold insertNode
      simp only [if_neg hn.ne']
      rw [R.check_true (by omega), R.ok_bind, R.subU_ok ho, R.ok_bind, grow_node hl hp hk, R.ok_bind,
        divCeil_eq_one hS hSk]
      obtain ⟨child, e1, w1, hlook, hcp, huni⟩ := child_of (o := o') (e := l * p ^ k) (sub := sub) hp hk (l * p ^ j)
        ((off - o') / (l * p ^ k)) m (Nat.le_mul_of_pos_right _ hpj) (hsub _ hfirst) off v fuel
      have hidx : ∀ x, off ≤ x → x < off + l * p ^ j → (x - o') / (l * p ^ k) = (off - o') / (l * p ^ k) := by
        intro x h1 h2
        have := (mem_elements (o := o') (x := x) (a := (off - o') / (l * p ^ k)) (c := 1) he (by omega)).2
          (by rw [Nat.mul_one]; omega)
        omega
      have hcom : (off - o') / (l * p ^ k) * (l * p ^ k) = l * p ^ k * ((off - o') / (l * p ^ k)) := Nat.mul_comm _ _
      have huc := huni j (husub _ hfirst) (fun h => by have := hle1.1 h; omega)
        (fun h => by have h' := mt hle1.2 h; omega)
      obtain ⟨child', hc', hu'⟩ := ih (by omega) hdvd' child hcp w1 huc (by omega) (by omega)
        (by rw [hpp]; omega) (by
          intro x h1 h2
          have := hfree x h1 h2
          simp only [look] at this
          rw [hidx x h1 h2, if_pos hfirst] at this
          rw [hlook]; exact this)
      refine ⟨.branch o' (l * p ^ k) m (update sub ((off - o') / (l * p ^ k)) child'), ?_, ?_⟩
      · rw [show List.range' ((off - o') / (l * p ^ k)) 1 = [(off - o') / (l * p ^ k)] from rfl]
        unfold setNodes
        rw [R.check_true hfirst, R.ok_bind, e1, hc', R.ok_bind]
        rfl
      · refine ⟨hjk, fun i hi => ?_⟩
        unfold update
        split
        · exact hu'
        · exact husub i hi

/-! ## Trees -/

/-- The tree holds the ranges. -/
structure Holds (t : Tree α) (rs : List (Range α)) : Prop where
  leaf : 0 < t.leafSize
  root : (t.root = .absent ∧ rs = []) ∨ t.root ≠ .absent
  nodes : ∃ k n, wf t.perNode t.leafSize t.root k 0 n ∧ 0 < n ∧ 0 < t.perNode ^ k ∧
    t.dataSize ≤ t.leafSize * t.perNode ^ k * n ∧ k ≤ t.dataSize
  answer : ∀ x, x < t.dataSize → Answer rs x (look t.root x)
  apart : rs.Pairwise Range.apart
  inside : ∀ r ∈ rs, r.offset + r.size ≤ t.dataSize

theorem new_holds (d p l : Nat) (hl : 0 < l) : Holds (new d p l : Tree α) [] := by
  refine ⟨hl, Or.inl ⟨rfl, rfl⟩, ⟨0, d + 1, trivial, by omega, by simp, ?_, by omega⟩, fun x _ => ?_, List.Pairwise.nil, ?_⟩
  · simp only [new, Nat.pow_zero, Nat.mul_one]
    exact Nat.le_trans (Nat.le_succ d) (Nat.le_mul_of_pos_left _ hl)
  · intro r hr; cases hr
  · intro r hr; cases hr

theorem mulU_eq_ok {n a b d : Nat} : R.mulU n a b = .ok d ↔ a * b < 2 ^ n ∧ d = a * b := by
  unfold R.mulU
  split <;> simp_all [eq_comm]

theorem addU_eq_ok {n a b d : Nat} : R.addU n a b = .ok d ↔ a + b < 2 ^ n ∧ d = a + b := by
  unfold R.addU
  split <;> simp_all [eq_comm]

/-- The root node has elements of some level. -/
theorem rootElement_spec (t : Tree α) (hl : 0 < t.leafSize) (hmul : t.perNode * t.leafSize < 2 ^ 64) :
    ∃ k, rootElement t = .ok (t.leafSize * t.perNode ^ k) ∧ 0 < t.perNode ^ k ∧ (1 ≤ k → 2 ≤ t.perNode) ∧ k ≤ t.dataSize ∧
      (2 ≤ t.perNode → t.dataSize / (t.leafSize * t.perNode ^ k) ≤ t.perNode) := by
  unfold rootElement
  rw [R.mulU_ok hmul, R.ok_bind]
  by_cases hp : 2 ≤ t.perNode
  · have hgt : t.perNode * t.leafSize > t.leafSize := by
      have := Nat.mul_le_mul_right t.leafSize hp
      omega
    rw [if_pos hgt]
    obtain ⟨k, e, h1, h2⟩ := grow_root (l := t.leafSize) (p := t.perNode) (d := t.dataSize) (fuel := t.dataSize) hl hp 0
      (by left; simp; omega)
    rw [Nat.pow_zero, Nat.mul_one] at e
    refine ⟨k, e, Nat.pow_pos (by omega), fun _ => hp, ?_, fun _ => h1⟩
    rcases h2 with rfl | h2
    · omega
    · have := lt_two_pow_le (k := k) hl hp
      omega
  · have hle : ¬t.perNode * t.leafSize > t.leafSize := by
      have : t.perNode * t.leafSize ≤ 1 * t.leafSize := Nat.mul_le_mul_right _ (by omega)
      omega
    rw [if_neg hle]
    exact ⟨0, by simp, by simp, by omega, by omega, by omega⟩

theorem rootElement_ok {t : Tree α} {e : Nat} (h : rootElement t = .ok e) : t.perNode * t.leafSize < 2 ^ 64 := by
  unfold rootElement at h
  obtain ⟨d, h, _⟩ := R.bind_eq_ok.1 h
  exact (mulU_eq_ok.1 h).1

theorem ensureRoot_spec {t : Tree α} {rs : List (Range α)} (hh : Holds t rs) {size : Nat} (hs : t.leafSize ≤ size)
    (hd : size ≤ t.dataSize) (hmul : t.root = .absent → t.perNode * t.leafSize < 2 ^ 64) :
    ∃ root k n, ensureRoot t size = .ok root ∧ root ≠ .absent ∧ wf t.perNode t.leafSize root k 0 n ∧ 0 < n ∧
      0 < t.perNode ^ k ∧ t.dataSize ≤ t.leafSize * t.perNode ^ k * n ∧ k ≤ t.dataSize ∧
      (∀ x, look root x = look t.root x) ∧
      (t.root = .absent → ∀ j, size = t.leafSize * t.perNode ^ j → 2 ≤ t.perNode → Uni j root k) := by
  obtain ⟨hl, hroot, ⟨k, n, hw, hn, hpk, hcov, hk⟩, -⟩ := hh
  rcases hroot with ⟨hr, rfl⟩ | hr
  · obtain ⟨k, he, hpk, hk2, hkd, _⟩ := rootElement_spec t hl (hmul hr)
    have hE : 0 < t.leafSize * t.perNode ^ k := Nat.mul_pos hl hpk
    unfold ensureRoot createRoot
    rw [hr]
    simp only
    rw [he, R.ok_bind, R.check_true (by omega), R.ok_bind]
    have hcov := le_divCeil_mul (a := t.dataSize) hE
    have hn : 0 < divCeil t.dataSize (t.leafSize * t.perNode ^ k) := by
      rcases Nat.eq_zero_or_pos (divCeil t.dataSize (t.leafSize * t.perNode ^ k)) with h | h
      · rw [h] at hcov; omega
      · exact h
    by_cases hle : t.leafSize * t.perNode ^ k ≤ size
    · rw [if_pos hle]
      refine ⟨_, k, _, rfl, by simp, ⟨rfl, rfl, rfl⟩, hn, hpk, hcov, hkd, fun x => by simp [look], fun _ j hj hp => ?_⟩
      rw [hj] at hle
      exact (Nat.pow_le_pow_iff_right (show 1 < t.perNode by omega)).1 (Nat.le_of_mul_le_mul_left hle hl)
    · rw [if_neg hle]
      have hk1 : 1 ≤ k := by
        rcases Nat.eq_zero_or_pos k with h | h
        · rw [h] at hle; simp at hle; omega
        · exact h
      refine ⟨_, k, _, rfl, by simp, ⟨rfl, rfl, rfl, hk1, hk2 hk1, fun _ _ => trivial⟩, hn, hpk, hcov, hkd,
        fun x => by simp [look], fun _ j hj hp => ⟨?_, fun _ _ => trivial⟩⟩
      by_contra hc
      apply hle
      rw [hj]
      exact Nat.mul_le_mul_left _ (Nat.pow_le_pow_right (by omega) (by omega))
  · refine ⟨t.root, k, n, ?_, hr, hw, hn, hpk, hcov, hk, fun _ => rfl, fun h => absurd h hr⟩
    unfold ensureRoot
    split
    · next h => exact absurd h hr
    · rfl

theorem holds_insert {t : Tree α} {rs : List (Range α)} (hh : Holds t rs) {off size : Nat} {v : α} (hs : 0 < size)
    (hin : off + size ≤ t.dataSize) {root after : Node α} {k n : Nat} (hn : 0 < n) (hpk : 0 < t.perNode ^ k)
    (hcov : t.dataSize ≤ t.leafSize * t.perNode ^ k * n) (hk : k ≤ t.dataSize)
    (hlook : ∀ x, look root x = look t.root x)
    (hI : Inserted t.perNode t.leafSize k 0 n off size v root after) :
    Holds { t with root := after } (rs ++ [⟨off, size, v⟩]) := by
  obtain ⟨i1, i2, i3, i4, i5, i6⟩ := hI
  refine ⟨hh.leaf, Or.inr i1, ⟨k, n, i2, hn, hpk, hcov, hk⟩, fun x hx => ?_, ?_, ?_⟩
  · simp only at hx ⊢
    rw [i6 x (by omega) (by omega)]
    by_cases hc : off ≤ x ∧ x < off + size
    · rw [if_pos hc]
      exact ⟨⟨off, size, v⟩, by simp, hc, rfl⟩
    · rw [if_neg hc, hlook]
      have := hh.answer x hx
      cases hlk : look t.root x with
      | none =>
        rw [hlk] at this
        intro r hr
        rw [List.mem_append, List.mem_singleton] at hr
        rcases hr with hr | rfl
        · exact this r hr
        · exact hc
      | some w =>
        rw [hlk] at this
        obtain ⟨r, hr, h1, h2⟩ := this
        exact ⟨r, by simp [hr], h1, h2⟩
  · rw [List.pairwise_append]
    refine ⟨hh.apart, by simp, fun r hr s hs' x hx => ?_⟩
    rw [List.mem_singleton] at hs'
    subst hs'
    have hfree := i5 x hx.2.1 hx.2.2
    rw [hlook] at hfree
    have hxd : x < t.dataSize := by have := hx.2.2; simp only at this; omega
    have := hh.answer x hxd
    rw [hfree] at this
    exact this r hr hx.1
  · intro r hr
    rw [List.mem_append, List.mem_singleton] at hr
    rcases hr with hr | rfl
    · exact hh.inside r hr
    · exact hin

theorem size_ge {l s : Nat} (hs : 0 < s) (h : s % l = 0) : l ≤ s :=
  Nat.le_of_dvd hs (Nat.dvd_of_mod_eq_zero h)

theorem insert_sound {t t' : Tree α} {rs : List (Range α)} (hh : Holds t rs) {off size : Nat} {v : α} (hs : 0 < size)
    (ha : Aligned t.perNode t.leafSize off size) (hok : insert t off size v = .ok t') :
    Holds t' (rs ++ [⟨off, size, v⟩]) ∧ t'.dataSize = t.dataSize ∧ t'.perNode = t.perNode ∧ t'.leafSize = t.leafSize := by
  unfold insert at hok
  obtain ⟨last, h1, hok⟩ := R.bind_eq_ok.1 hok
  obtain ⟨_, rfl⟩ := addU_eq_ok.1 h1
  obtain ⟨_, h2, hok⟩ := R.bind_eq_ok.1 hok
  rw [R.require_eq_ok] at h2
  obtain ⟨_, _, hok⟩ := R.bind_eq_ok.1 hok
  obtain ⟨_, _, hok⟩ := R.bind_eq_ok.1 hok
  obtain ⟨_, h3, hok⟩ := R.bind_eq_ok.1 hok
  rw [R.require_eq_ok] at h3
  obtain ⟨root, h4, hok⟩ := R.bind_eq_ok.1 hok
  obtain ⟨after, h5, hok⟩ := R.bind_eq_ok.1 hok
  simp only [R.pure_eq, R.ok.injEq] at hok
  subst hok
  have hls := size_ge hs h3
  have hmul : t.root = .absent → t.perNode * t.leafSize < 2 ^ 64 := by
    intro hr
    unfold ensureRoot createRoot at h4
    rw [hr] at h4
    obtain ⟨e, h4, _⟩ := R.bind_eq_ok.1 h4
    exact rootElement_ok h4
  obtain ⟨root', k, n, e1, -, w1, hn, hpk, hcov, hk, hlook, -⟩ := ensureRoot_spec hh hls (by omega) hmul
  rw [e1, R.ok.injEq] at h4
  subst h4
  have hI := insertNode_sound hh.leaf hls ha _ hn hpk (Nat.dvd_zero _) root' after w1 h5
  exact ⟨holds_insert hh hs h2 hn hpk hcov hk hlook hI, rfl, rfl, rfl⟩

theorem insert_panicfree_root {t : Tree α} {rs : List (Range α)} (hh : Holds t rs) {off size : Nat} (v : α)
    (hin : off + size ≤ t.dataSize) (h64 : t.dataSize < 2 ^ 64) (hoff : off % t.leafSize = 0) (hsz : size % t.leafSize = 0)
    {root : Node α} (hr : ensureRoot t size = .ok root) :
    insert t off size v = (do
      let root ← insertNode t.perNode t.leafSize off size v (t.dataSize + 1) root
      pure { t with root := root }) := by
  unfold insert
  have := hh.leaf
  rw [R.addU_ok (by omega), R.ok_bind, R.require_true hin, R.ok_bind, R.check_true (by omega), R.ok_bind,
    R.require_true hoff, R.ok_bind, R.require_true hsz, R.ok_bind, hr, R.ok_bind]

theorem free_of_apart {t : Tree α} {rs : List (Range α)} (hh : Holds t rs) {off size : Nat} {v : α}
    (hin : off + size ≤ t.dataSize) (hap : ∀ r ∈ rs, r.apart ⟨off, size, v⟩) (x : Nat) (h1 : off ≤ x) (h2 : x < off + size) :
    look t.root x = none := by
  have h := hh.answer x (by omega)
  cases hl : look t.root x with
  | none => rfl
  | some w =>
    rw [hl] at h
    obtain ⟨r, hr, hx, _⟩ := h
    exact absurd ⟨hx, h1, h2⟩ (hap r hr x)

/-- With at most one element per node the tree is a plain array of leaf values: every range of whole
leaf values that is free can be inserted. -/
theorem insert_flat {t : Tree α} {rs : List (Range α)} (hh : Holds t rs) {off size : Nat} {v : α} (hp : t.perNode ≤ 1)
    (hs : 0 < size) (hin : off + size ≤ t.dataSize) (h64 : t.dataSize < 2 ^ 64) (hoff : t.leafSize ∣ off)
    (hsz : t.leafSize ∣ size) (hap : ∀ r ∈ rs, r.apart ⟨off, size, v⟩) :
    ∃ t', insert t off size v = .ok t' ∧ Holds t' (rs ++ [⟨off, size, v⟩]) ∧ t'.dataSize = t.dataSize ∧
      t'.perNode = t.perNode ∧ t'.leafSize = t.leafSize := by
  have hls := Nat.le_of_dvd hs hsz
  have hmul : t.perNode * t.leafSize < 2 ^ 64 := by
    have : t.perNode * t.leafSize ≤ 1 * t.leafSize := Nat.mul_le_mul_right _ hp
    omega
  obtain ⟨root, k, n, e1, hpres, w1, hn, hpk, hcov, hk, hlook, -⟩ := ensureRoot_spec hh hls (by omega) (fun _ => hmul)
  have hone : t.perNode ^ k = 1 := by
    rcases Nat.eq_zero_or_pos k with h | h
    · rw [h]; rfl
    · have : t.perNode = 1 := by
        rcases Nat.eq_zero_or_pos t.perNode with h0 | h0
        · rw [h0, Nat.zero_pow h] at hpk; omega
        · omega
      rw [this, Nat.one_pow]
  have hal : Aligned t.perNode t.leafSize off size := by
    intro j hj _
    have hpj : t.perNode ^ j ≤ 1 := by
      calc t.perNode ^ j ≤ 1 ^ j := Nat.pow_le_pow_left hp j
        _ = 1 := Nat.one_pow j
    have : t.perNode ^ j = 1 := by
      rcases Nat.eq_zero_or_pos (t.perNode ^ j) with h0 | h0
      · rw [h0] at hj; omega
      · omega
    rw [this, Nat.mul_one]; exact hoff
  have hins : ∃ after, insertNode t.perNode t.leafSize off size v (t.dataSize + 1) root = .ok after := by
    cases root with
    | absent => exact absurd rfl hpres
    | branch o e m sub => obtain ⟨-, -, -, -, h, -⟩ := w1; omega
    | leaf o e m f =>
      obtain ⟨rfl, rfl, rfl⟩ := w1
      obtain ⟨g, hg⟩ := insertNode_leaf_ok (v := v) (off := off) (size := size) hh.leaf t.dataSize hn hpk f
        (by rw [hone, Nat.mul_one]; exact hsz) (o := 0) (by rw [hone, Nat.mul_one]; exact hoff) (by omega) (by omega)
        (fun x h1 h2 => by rw [hlook]; exact free_of_apart hh hin hap x h1 h2)
      exact ⟨_, hg⟩
  obtain ⟨after, hafter⟩ := hins
  have hok : insert t off size v = .ok { t with root := after } := by
    rw [insert_panicfree_root hh v hin h64 (Nat.mod_eq_zero_of_dvd hoff) (Nat.mod_eq_zero_of_dvd hsz) e1, hafter, R.ok_bind]
    rfl
  obtain ⟨h1, h2, h3, h4⟩ := insert_sound hh hs hal hok
  exact ⟨_, hok, h1, h2, h3, h4⟩

/-- All nodes are made for ranges of level `j`. -/
def UniTree (j : Nat) (t : Tree α) : Prop :=
  ∀ k n, wf t.perNode t.leafSize t.root k 0 n → Uni j t.root k

theorem wf_level {p l : Nat} (hl : 0 < l) (hp : 2 ≤ p) {node : Node α} (hne : node ≠ .absent) {k k' o n n' : Nat}
    (h : wf p l node k o n) (h' : wf p l node k' o n') : k = k' := by
  have : l * p ^ k = l * p ^ k' := by
    cases node with
    | absent => exact absurd rfl hne
    | branch _ _ _ _ => exact h.2.1.symm.trans h'.2.1
    | leaf _ _ _ _ => exact h.2.1.symm.trans h'.2.1
  exact Nat.pow_right_injective (show 2 ≤ p from hp) (Nat.eq_of_mul_eq_mul_left hl this)

theorem new_uniform (d p l j : Nat) : UniTree j (new d p l : Tree α) := fun _ _ _ => trivial

/-- In a tree used for ranges of one size, a power of the number of elements per node times the leaf
size, every such range that is free can be inserted. -/
theorem insert_uniform {t : Tree α} {rs : List (Range α)} (hh : Holds t rs) {j off : Nat} {v : α} (hp : 2 ≤ t.perNode)
    (hmul : t.perNode * t.leafSize < 2 ^ 64) (hu : UniTree j t)
    (hin : off + t.leafSize * t.perNode ^ j ≤ t.dataSize) (h64 : t.dataSize < 2 ^ 64)
    (hoff : t.leafSize * t.perNode ^ j ∣ off) (hap : ∀ r ∈ rs, r.apart ⟨off, t.leafSize * t.perNode ^ j, v⟩) :
    ∃ t', insert t off (t.leafSize * t.perNode ^ j) v = .ok t' ∧
      Holds t' (rs ++ [⟨off, t.leafSize * t.perNode ^ j, v⟩]) ∧ UniTree j t' ∧ t'.dataSize = t.dataSize ∧
      t'.perNode = t.perNode ∧ t'.leafSize = t.leafSize := by
  have hl := hh.leaf
  have hpj : 0 < t.perNode ^ j := Nat.pow_pos (by omega)
  have hs : 0 < t.leafSize * t.perNode ^ j := Nat.mul_pos hl hpj
  have hsz : t.leafSize ∣ t.leafSize * t.perNode ^ j := Nat.dvd_mul_right _ _
  have hls := Nat.le_of_dvd hs hsz
  obtain ⟨root, k, n, e1, hpres, w1, hn, hpk, hcov, hk, hlook, hun⟩ := ensureRoot_spec hh hls (by omega) (fun _ => hmul)
  have huroot : Uni j root k := by
    by_cases hr : t.root = .absent
    · exact hun hr j rfl hp
    · have : root = t.root := by
        have h := e1
        unfold ensureRoot at h
        split at h
        · next h' => exact absurd h' hr
        · exact (R.ok.inj h).symm
      rw [this] at w1 ⊢
      exact hu k n w1
  have hal : Aligned t.perNode t.leafSize off (t.leafSize * t.perNode ^ j) := by
    intro i _ hi
    have := (Nat.pow_le_pow_iff_right (show 1 < t.perNode by omega)).1 (Nat.le_of_mul_le_mul_left hi hl)
    exact Nat.dvd_trans (Nat.mul_dvd_mul_left _ (Nat.pow_dvd_pow _ this)) hoff
  obtain ⟨after, hafter, hua⟩ := insertNode_uniform (v := v) hl hp hoff (t.dataSize + 1) hn (Nat.dvd_zero _) root hpres w1 huroot
    (by omega) (by omega) (by omega) (fun x h1 h2 => by rw [hlook]; exact free_of_apart hh hin hap x h1 h2)
  have hok : insert t off (t.leafSize * t.perNode ^ j) v = .ok { t with root := after } := by
    rw [insert_panicfree_root hh v hin h64 (Nat.mod_eq_zero_of_dvd (Nat.dvd_trans hsz hoff)) (Nat.mod_eq_zero_of_dvd hsz) e1,
      hafter, R.ok_bind]
    rfl
  obtain ⟨h1, h2, h3, h4⟩ := insert_sound hh hs hal hok
  refine ⟨_, hok, h1, fun k' n' hw' => ?_, h2, h3, h4⟩
  have hI := insertNode_sound hl hls hal _ hn hpk (Nat.dvd_zero _) root after w1 hafter
  rw [← wf_level hl hp hI.present hI.wf hw']
  exact hua

/-- Looking up an offset below the data size. -/
theorem get_holds {t : Tree α} {rs : List (Range α)} (hh : Holds t rs) {x : Nat} (hx : x < t.dataSize) :
    ∃ a, get t x = .ok a ∧ Answer rs x a := by
  obtain ⟨k, n, hw, hn, hpk, hcov, _⟩ := hh.nodes
  exact ⟨_, getNode_eq hh.leaf t.root hpk hw (Nat.zero_le _) (by omega), hh.answer x hx⟩

theorem answer_unique {rs : List (Range α)} (hap : rs.Pairwise Range.apart) {x : Nat} {a b : Option α}
    (ha : Answer rs x a) (hb : Answer rs x b) : a = b := by
  cases a with
  | none =>
    cases b with
    | none => rfl
    | some w => obtain ⟨r, hr, hx, _⟩ := hb; exact absurd hx (ha r hr)
  | some v =>
    cases b with
    | none => obtain ⟨r, hr, hx, _⟩ := ha; exact absurd hx (hb r hr)
    | some w =>
      obtain ⟨r, hr, hx, rfl⟩ := ha
      obtain ⟨s, hs, hx', rfl⟩ := hb
      induction rs with
      | nil => cases hr
      | cons q rs ih =>
        rw [List.pairwise_cons] at hap
        rcases List.mem_cons.1 hr with h1 | h1
        · rcases List.mem_cons.1 hs with h2 | h2
          · rw [h1, h2]
          · rw [h1] at hx; exact absurd ⟨hx, hx'⟩ (hap.1 s h2 x)
        · rcases List.mem_cons.1 hs with h2 | h2
          · rw [h2] at hx'; exact absurd ⟨hx', hx⟩ (hap.1 r h1 x)
          · exact ih hap.2 h1 h2

end Keramics.BlockTree

namespace Keramics.BlockTree
open Keramics.Spec.BlockTree
variable {α : Type}

theorem apart_of_le {r : Range α} {off size : Nat} {v : α} (h : r.offset + r.size ≤ off) : r.apart ⟨off, size, v⟩ := by
  intro x hx
  have h1 := hx.1.2
  have h2 : off ≤ x := hx.2.1
  omega

/-- Appending to a flat tree: the range is accepted if it is inside, rejected if it is not. -/
theorem append_flat {t : Tree α} {rs : List (Range α)} (hh : Holds t rs) {off size : Nat} {v : α} (hp : t.perNode ≤ 1)
    (hs : 0 < size) (h64 : t.dataSize < 2 ^ 64) (hadd : off + size < 2 ^ 64) (hoff : t.leafSize ∣ off)
    (hsz : t.leafSize ∣ size) (hup : ∀ r ∈ rs, r.offset + r.size ≤ off) :
    (off + size ≤ t.dataSize ∧ ∃ t', insert t off size v = .ok t' ∧ Holds t' (rs ++ [⟨off, size, v⟩]) ∧
      t'.dataSize = t.dataSize ∧ t'.perNode = t.perNode ∧ t'.leafSize = t.leafSize) ∨
    (t.dataSize < off + size ∧ insert t off size v = .err) := by
  by_cases hin : off + size ≤ t.dataSize
  · exact Or.inl ⟨hin, insert_flat hh hp hs hin h64 hoff hsz (fun r hr => apart_of_le (hup r hr))⟩
  · refine Or.inr ⟨by omega, ?_⟩
    unfold insert
    rw [R.addU_ok hadd, R.ok_bind]
    simp [R.require, hin]

/-- The value found at a position is that of the range that has it. -/
theorem get_range {t : Tree α} {rs : List (Range α)} (hh : Holds t rs) {x : Nat} {r : Range α} (hr : r ∈ rs) (hx : r.has x)
    (hin : x < t.dataSize) : get t x = .ok (some r.value) := by
  obtain ⟨a, h1, h2⟩ := get_holds hh hin
  rw [h1, answer_unique hh.apart h2 (b := some r.value) ⟨r, hr, hx, rfl⟩]

/-- Nothing is found where no range is. -/
theorem get_free {t : Tree α} {rs : List (Range α)} (hh : Holds t rs) {x : Nat} (hx : ∀ r ∈ rs, ¬r.has x)
    (hin : x < t.dataSize) : get t x = .ok none := by
  obtain ⟨a, h1, h2⟩ := get_holds hh hin
  rw [h1, answer_unique hh.apart h2 (b := none) hx]

end Keramics.BlockTree
