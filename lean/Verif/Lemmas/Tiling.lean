import Verif.Lemmas.BlockTree
import Verif.Base.Tactics

/-!
# Lemmas: block trees of ranges that follow each other

An insertion that succeeds stores a whole number of elements from the element that has the first position of the range, so a range
may be stored too low. Ranges that follow each other from the start are stored where they belong, if all of them are stored.
-/

namespace Keramics.BlockTree
open Keramics.Spec.BlockTree

variable {α : Type}

/-- An insertion into a node that succeeds stores the range, perhaps too low. -/
theorem insertNode_shift {p l off size : Nat} {v : α} (hl : 0 < l) (hs : l ≤ size)
    (fuel : Nat) {k o n : Nat} (hn : 0 < n) (hpk : 0 < p ^ k) (hdvd : l * p ^ k ∣ o) (node node' : Node α)
    (hw : wf p l node k o n)
    (hok : insertNode p l off size v fuel node = .ok node') : ∃ d, d < size ∧ d ≤ off ∧ Inserted p l k o n (off - d) size v node node' := by
  induction fuel generalizing k o n node node' with
  | zero => cases hok
  | succ fuel ih =>
    have he : 0 < l * p ^ k := Nat.mul_pos hl hpk
    cases node with
    | absent => cases hok
    | leaf o' e m f =>
      obtain ⟨rfl, rfl, rfl⟩ := hw
      unfold insertNode at hok
      rw [R.check_true (by omega), R.ok_bind] at hok
      obtain ⟨_, h1, hok⟩ := R.bind_eq_ok.1 hok
      rw [R.require_eq_ok] at h1
      obtain ⟨d, h2, hok⟩ := R.bind_eq_ok.1 hok
      obtain ⟨hle, rfl⟩ := subU_eq_ok.1 h2
      simp only [if_neg hn.ne'] at hok
      obtain ⟨g, h3, hok⟩ := R.bind_eq_ok.1 hok
      simp only [R.pure_eq, R.ok.injEq] at hok
      subst hok
      obtain ⟨q1, q2, q3⟩ := setValues_ok h3
      -- the range is made of whole elements
      obtain ⟨c, hc⟩ := Nat.dvd_of_mod_eq_zero h1
      have hc0 : 0 < c := by rcases Nat.eq_zero_or_pos c with h | h; (subst h; omega); exact h
      have hdiv : size / (l * p ^ k) = c := by rw [hc, Nat.mul_div_cancel_left _ he]
      rw [hdiv] at q1 q2 q3
      have hesize : l * p ^ k ≤ size := by rw [hc]; exact Nat.le_mul_of_pos_right _ hc0
      generalize hE : l * p ^ k = E at *
      have hmod := Nat.mod_lt (off - o') he
      have hdm := Nat.div_add_mod (off - o') E
      generalize ha' : (off - o') / E = a at *
      generalize hd' : (off - o') % E = d at *
      have hoff' : off - d = o' + E * a := by omega
      have hhigh : off - d + size ≤ o' + E * m := by
        have := Nat.mul_le_mul_left E (q1 hc0)
        rw [Nat.mul_add] at this
        omega
      refine ⟨d, by omega, by omega, by simp, ⟨rfl, hE.symm, rfl⟩, by omega, hE ▸ hhigh, fun x hx1 hx2 => ?_, fun x hx1 hx2 => ?_⟩
      · have hm := (mem_elements (a := a) (c := c) he (show o' ≤ x by omega)).2 (by omega)
        unfold look
        rw [q2 _ hm.1 hm.2]
        split <;> rfl
      · have hin := (div_lt_iff he hx1).2 (hE ▸ hx2)
        have hm := mem_elements (a := a) (c := c) he hx1
        simp only [look]
        rw [if_pos hin, if_pos hin, q3]
        rw [hoff', hc]
        by_cases hc : a ≤ (x - o') / E ∧ (x - o') / E < a + c
        · rw [if_pos hc, if_pos (hm.1 hc)]
        · rw [if_neg hc, if_neg (fun h => hc (hm.2 h))]
    | branch o' e m sub =>
      obtain ⟨rfl, rfl, rfl, hk, hp, hsub⟩ := hw
      have hlow := insertNode_low hok (k := k) (n := m) ⟨rfl, rfl, rfl, hk, hp, hsub⟩
      unfold insertNode at hok
      simp only [if_neg hn.ne'] at hok
      rw [R.check_true (by omega), R.ok_bind, R.subU_ok hlow, R.ok_bind, grow_node hl hp hk, R.ok_bind] at hok
      obtain ⟨g, h3, hok⟩ := R.bind_eq_ok.1 hok
      simp only [R.pure_eq, R.ok.injEq] at hok
      subst hok
      have hchild := fun i hi => child_of (o := o') (e := l * p ^ k) (sub := sub) hp hk size i m hs (hsub i hi) off v fuel
      have hpp := pow_pred (l := l) (p := p) hk
      have hppos : 0 < p ^ (k - 1) := Nat.pow_pos (by omega)
      have hd := Nat.div_add_mod (off - o') (l * p ^ k)
      have hm := Nat.mod_lt (off - o') he
      have hdvd' : ∀ i, l * p ^ (k - 1) ∣ o' + i * (l * p ^ k) := by
        intro i
        have h1 : l * p ^ (k - 1) ∣ l * p ^ k := by rw [← hpp]; exact Nat.dvd_mul_right _ _
        exact Nat.dvd_add (Nat.dvd_trans h1 hdvd) (Nat.dvd_trans h1 (Nat.dvd_mul_left _ _))
      generalize hE : l * p ^ k = E at *
      generalize hfi : (off - o') / E = first at *
      -- only one sub node is concerned
      have hsize : size ≤ E := by
        by_contra hlt
        have h2 := divCeil_ge_two he (show E < size by omega)
        obtain ⟨r, hr⟩ : ∃ r, divCeil size E = r + 2 := ⟨divCeil size E - 2, by omega⟩
        rw [hr, List.range'_succ, List.range'_succ] at h3
        obtain ⟨hj, c', hc'⟩ := setNodes_two (by omega) h3
        obtain ⟨child, e1, w1, _, _⟩ := hchild (first + 1) hj
        rw [e1] at hc'
        have := insertNode_low hc' w1
        rw [Nat.mul_comm, Nat.mul_add] at this
        omega
      rw [divCeil_eq_one (by omega) hsize, show List.range' first 1 = [first] from rfl] at h3
      unfold setNodes at h3
      obtain ⟨_, h4, h3⟩ := R.bind_eq_ok.1 h3
      rw [R.check_eq_ok] at h4
      obtain ⟨c', h5, h3⟩ := R.bind_eq_ok.1 h3
      unfold setNodes at h3
      simp only [R.ok.injEq] at h3
      subst h3
      obtain ⟨child, e1, w1, hlook, _⟩ := hchild first h4
      rw [e1] at h5
      obtain ⟨dl, hdl1, hdl2, hI⟩ := ih (by omega) hppos (hdvd' first) child c' w1 h5
      have hcover : l * p ^ (k - 1) * p = E := by rw [hpp]
      obtain ⟨i1, i2, i3, i4, i5, i6⟩ := hI
      rw [hcover] at i4 i6
      have hfe : first * E = E * first := Nat.mul_comm _ _
      have hfn : E * first + E ≤ E * m := by
        have := Nat.mul_le_mul_left E (show first + 1 ≤ m from h4)
        rwa [Nat.mul_add, Nat.mul_one] at this
      have hidx : ∀ x, o' ≤ x → ((x - o') / E = first ↔ (o' + E * first ≤ x ∧ x < o' + E * first + E)) := by
        intro x hx
        have := mem_elements (a := first) (c := 1) he hx
        rw [Nat.mul_one] at this
        rw [← this]
        omega
      refine ⟨dl, hdl1, hdl2, by simp, ⟨rfl, hE.symm, rfl, hk, hp, fun i hi => ?_⟩, by omega, by rw [hE]; omega, fun x hx1 hx2 => ?_, fun x hx1 hx2 => ?_⟩
      · unfold update
        split
        · next h => rw [h]; exact i2
        · exact hsub i hi
      · simp only [look]
        have : (x - o') / E = first := (hidx x (by omega)).2 (by omega)
        rw [this, if_pos h4, ← hlook]
        exact i5 x hx1 hx2
      · have hin := (div_lt_iff he hx1).2 (hE ▸ hx2)
        simp only [look]
        rw [if_pos hin, if_pos hin]
        by_cases hf : (x - o') / E = first
        · rw [hf]
          have hr := (hidx x hx1).1 hf
          simp only [update, if_true]
          rw [i6 x (by omega) (by omega), hlook]
        · simp only [update, if_neg hf]
          rw [if_neg]
          intro hc
          exact hf ((hidx x hx1).2 (by omega))

/-- An insertion that succeeds stores the range, perhaps too low. -/
theorem insert_shift {t t' : Tree α} {rs : List (Range α)} (hh : Holds t rs) {off size : Nat} {v : α} (hs : 0 < size) (hok : insert t off size v = .ok t') :
    (∃ d, d < size ∧ d ≤ off ∧ Holds t' (rs ++ [⟨off - d, size, v⟩])) ∧ t'.dataSize = t.dataSize ∧ t'.perNode = t.perNode ∧ t'.leafSize = t.leafSize := by
  unfold insert at hok
  obtain ⟨last, h1, hok⟩ := R.bind_eq_ok.1 hok
  obtain ⟨_, rfl⟩ := addU_eq_ok.1 h1
  obtain ⟨_, h2, hok⟩ := R.bind_eq_ok.1 hok
  rw [R.require_eq_ok] at h2
  obtain ⟨_, _, hok⟩ := R.bind_eq_ok.1 hok
  obtain ⟨_, _, hok⟩ := R.bind_eq_ok.1 hok
  obtain ⟨_, h3, hok⟩ := R.bind_eq_ok.1 hok
  rw [R.require_eq_ok] at h3
  obtain ⟨root, h4, hok⟩ := R.bind_eq_ok.1 hok
  obtain ⟨after, h5, hok⟩ := R.bind_eq_ok.1 hok
  simp only [R.pure_eq, R.ok.injEq] at hok
  subst hok
  have hls := size_ge hs h3
  have hmul : t.root = .absent → t.perNode * t.leafSize < 2 ^ 64 := by
    intro hr
    unfold ensureRoot createRoot at h4
    rw [hr] at h4
    obtain ⟨e, h4, _⟩ := R.bind_eq_ok.1 h4
    exact rootElement_ok h4
  obtain ⟨root', k, n, e1, -, w1, hn, hpk, hcov, hk, hlook, -⟩ := ensureRoot_spec hh hls (by omega) hmul
  rw [e1, R.ok.injEq] at h4
  subst h4
  obtain ⟨d, hd1, hd2, hI⟩ := insertNode_shift hh.leaf hls _ hn hpk (Nat.dvd_zero _) root' after w1 h5
  exact ⟨⟨d, hd1, hd2, holds_insert hh hs (by omega) hn hpk hcov hk hlook hI⟩, rfl, rfl, rfl⟩

/-! ## Ranges that follow each other -/

/-- Insert ranges one after the other. -/
def insertAll : List (Range α) → Tree α → R (Tree α)
  | [], t => .ok t
  | r :: rs, t => do
    let t ← insert t r.offset r.size r.value
    insertAll rs t

/-- The range is the other one, stored perhaps too low. -/
def Lower (r s : Range α) : Prop := ∃ d, d < r.size ∧ d ≤ r.offset ∧ s = ⟨r.offset - d, r.size, r.value⟩

theorem insertAll_lower {rs : List (Range α)} {t t' : Tree α} {before : List (Range α)} (hh : Holds t before)
    (hs : ∀ r ∈ rs, 0 < r.size) (h : insertAll rs t = .ok t') :
    (∃ low, List.Forall₂ Lower rs low ∧ Holds t' (before ++ low)) ∧ t'.dataSize = t.dataSize ∧ t'.perNode = t.perNode ∧
      t'.leafSize = t.leafSize := by
  induction rs generalizing t before with
  | nil => simp only [insertAll, R.ok.injEq] at h; subst h; exact ⟨⟨[], .nil, by simpa using hh⟩, rfl, rfl, rfl⟩
  | cons r rs ih =>
    unfold insertAll at h
    obtain ⟨t1, h1, h⟩ := R.bind_eq_ok.1 h
    obtain ⟨⟨d, d1, d2, hh1⟩, e1, e2, e3⟩ := insert_shift hh (hs r (by simp)) h1
    obtain ⟨⟨low, hl, hh2⟩, e4, e5, e6⟩ := ih hh1 (fun r hr => hs r (by simp [hr])) h
    refine ⟨⟨⟨r.offset - d, r.size, r.value⟩ :: low, .cons ⟨d, d1, d2, rfl⟩ hl, by simpa using hh2⟩, by omega, by omega, by omega⟩

/-- The ranges follow each other from a position. -/
def Follow : Nat → List (Range α) → Prop
  | _, [] => True
  | n, r :: rs => r.offset = n ∧ 0 < r.size ∧ Follow (n + r.size) rs

theorem apart_symm {r s : Range α} (h : r.apart s) : s.apart r := fun x hx => h x ⟨hx.2, hx.1⟩

/-- Ranges that follow each other and are stored without an overlap are stored where they belong. -/
theorem lower_eq {rs low : List (Range α)} {n : Nat} (hl : List.Forall₂ Lower rs low) (hf : Follow n rs) (hap : low.Pairwise Range.apart)
    (hn : 0 < n → ∀ s ∈ low, ¬ s.has (n - 1)) : low = rs := by
  induction hl generalizing n with
  | nil => rfl
  | @cons r s rs low hr hl ih =>
    obtain ⟨d, d1, d2, rfl⟩ := hr
    obtain ⟨e, hs, hf⟩ := hf
    have hd : d = 0 := by
      rcases Nat.eq_zero_or_pos d with h | h
      · exact h
      · exact absurd ⟨by simp only; omega, by simp only; omega⟩ (hn (by omega) _ (List.mem_cons_self ..))
    subst hd
    rw [List.pairwise_cons] at hap
    rw [ih hf hap.2 (fun _ s hs' hc => hap.1 s hs' _ ⟨⟨by simp only; omega, by simp only; omega⟩, hc⟩)]
    rfl

theorem forall₂_snoc {β γ : Type} {P : β → γ → Prop} {a : List β} {b : List γ} {x : β} {y : γ} (h : List.Forall₂ P a b) (hx : P x y) :
    List.Forall₂ P (a ++ [x]) (b ++ [y]) := by
  induction h with
  | nil => exact .cons hx .nil
  | cons h _ ih => exact .cons h ih

theorem forall₂_reverse {β γ : Type} {P : β → γ → Prop} {a : List β} {b : List γ} (h : List.Forall₂ P a b) : List.Forall₂ P a.reverse b.reverse := by
  induction h with
  | nil => exact .nil
  | cons h _ ih =>
    rw [List.reverse_cons, List.reverse_cons]
    exact forall₂_snoc ih h

/-- If ranges that follow each other from the start are inserted from the last one on, and all of them are accepted, then the tree
holds them. -/
theorem insertAll_reverse {rs : List (Range α)} {t t' : Tree α} (hh : Holds t []) (hf : Follow 0 rs)
    (h : insertAll rs.reverse t = .ok t') :
    Holds t' rs.reverse ∧ t'.dataSize = t.dataSize ∧ t'.perNode = t.perNode ∧ t'.leafSize = t.leafSize := by
  have hs : ∀ n, Follow n rs → ∀ r ∈ rs, 0 < r.size := by
    clear hf h
    induction rs with
    | nil => intro n _ r hr; cases hr
    | cons a rs ih =>
      intro n hf r hr
      rcases List.mem_cons.1 hr with rfl | hr
      · exact hf.2.1
      · exact ih _ hf.2.2 r hr
  obtain ⟨⟨low, hl, hh'⟩, e⟩ := insertAll_lower hh (fun r hr => hs 0 hf r (List.mem_reverse.1 hr)) h
  rw [List.nil_append] at hh'
  have hl' := forall₂_reverse hl
  rw [List.reverse_reverse] at hl'
  have := lower_eq hl' hf (List.pairwise_reverse.2 (hh'.apart.imp apart_symm)) (fun h => absurd h (by omega))
  rw [← this, List.reverse_reverse]
  exact ⟨hh', e⟩

/-! ## Ranges inside of the windows of the nodes -/

/-- A range inside of a window of the size of a leaf node with the smallest elements. -/
def InWindow (p l off size : Nat) : Prop := off / (l * p) = (off + size - 1) / (l * p)

theorem InWindow.room {p l off size o k : Nat} (h : InWindow p l off size) (hk : 1 ≤ k) (hl : 0 < l) (hp : 0 < p) (hs : 0 < size)
    (hdvd : l * p ^ k ∣ o) (ho : o ≤ off) : (off - o) % (l * p ^ k) + size ≤ l * p ^ k := by
  have hE : l * p ^ k = l * p * p ^ (k - 1) := by
    rw [Nat.mul_assoc, ← Nat.pow_succ']; congr 2; omega
  have hpos : 0 < l * p ^ k := Nat.mul_pos hl (Nat.pow_pos hp)
  have h1 : off / (l * p ^ k) = (off + size - 1) / (l * p ^ k) := by
    unfold InWindow at h
    rw [hE]
    generalize l * p = W at *
    rw [← Nat.div_div_eq_div_mul, ← Nat.div_div_eq_div_mul, h]
  generalize l * p ^ k = E at *
  obtain ⟨c, rfl⟩ := hdvd
  have h2 : (off - E * c) % E = off % E := by
    conv_rhs => rw [show off = off - E * c + E * c by omega, Nat.add_mul_mod_self_left]
  rw [h2]
  have a1 := Nat.div_add_mod off E
  have a2 := Nat.div_add_mod (off + size - 1) E
  have a3 := Nat.mod_lt (off + size - 1) hpos
  rw [← h1] at a2
  omega

theorem insertNode_window {p l off size : Nat} {v : α} (hl : 0 < l) (hp : 2 ≤ p) (hoff : l ∣ off) (hsize : l ∣ size) (hs0 : 0 < size)
    (fuel : Nat) {k o n : Nat} (hn : 0 < n) (hdvd : l * p ^ k ∣ o) (node : Node α) (hpres : node ≠ .absent)
    (hw : wf p l node k o n) (hu : Uni 0 node k) (hf : k < fuel) (ho : o ≤ off)
    (hsm : k = 0 ∨ size < l * p ∧ InWindow p l off size)
    (hhigh : off + size ≤ o + l * p ^ k * n)
    (hfree : ∀ x, off ≤ x → x < off + size → look node x = none) :
    ∃ node', insertNode p l off size v fuel node = .ok node' ∧ Uni 0 node' k := by
  induction fuel generalizing k o n node with
  | zero => omega
  | succ fuel ih =>
    have hpk : 0 < p ^ k := Nat.pow_pos (by omega)
    have he : 0 < l * p ^ k := Nat.mul_pos hl hpk
    have hls := Nat.le_of_dvd hs0 hsize
    cases node with
    | absent => exact absurd rfl hpres
    | leaf o' e m f =>
      obtain ⟨rfl, rfl, rfl⟩ := hw
      have hk0 : k = 0 := Nat.le_zero.1 hu
      subst hk0
      have e1 : l * p ^ 0 = l := by simp
      obtain ⟨g, hg⟩ := insertNode_leaf_ok (v := v) hl fuel hn hpk f (by rw [e1]; exact hsize)
        (by rw [e1] at hdvd ⊢; exact Nat.dvd_sub hoff hdvd) ho hhigh hfree
      exact ⟨_, hg, hu⟩
    | branch o' e m sub =>
      obtain ⟨rfl, rfl, rfl, hk, _, hsub⟩ := hw
      obtain ⟨hjk, husub⟩ := hu
      have hsm' : size < l * p ∧ InWindow p l off size := by
        rcases hsm with h | h
        · omega
        · exact h
      have hpp := pow_pred (l := l) (p := p) hk
      have hd := Nat.div_add_mod (off - o') (l * p ^ k)
      have hm := Nat.mod_lt (off - o') he
      have hroom := hsm'.2.room hk hl (by omega) hs0 hdvd ho
      have hfirst : (off - o') / (l * p ^ k) < m := (div_lt_iff he ho).2 (by omega)
      have hdvd' : l * p ^ (k - 1) ∣ o' + (off - o') / (l * p ^ k) * (l * p ^ k) := by
        have h1 : l * p ^ (k - 1) ∣ l * p ^ k := by rw [← hpp]; exact Nat.dvd_mul_right _ _
        exact Nat.dvd_add (Nat.dvd_trans h1 hdvd) (Nat.dvd_trans h1 (Nat.dvd_mul_left _ _))
      have hSk : size ≤ l * p ^ k := by omega
      unfold insertNode
      simp only [if_neg hn.ne']
      rw [R.check_true (by omega), R.ok_bind, R.subU_ok ho, R.ok_bind, grow_node hl hp hk, R.ok_bind,
        divCeil_eq_one hs0 hSk]
      obtain ⟨child, e1, w1, hlook, hcp, huni⟩ := child_of (o := o') (e := l * p ^ k) (sub := sub) hp hk size
        ((off - o') / (l * p ^ k)) m hls (hsub _ hfirst) off v fuel
      have hidx : ∀ x, off ≤ x → x < off + size → (x - o') / (l * p ^ k) = (off - o') / (l * p ^ k) := by
        intro x h1 h2
        have := (mem_elements (o := o') (x := x) (a := (off - o') / (l * p ^ k)) (c := 1) he (by omega)).2
          (by rw [Nat.mul_one]; omega)
        omega
      have hcom : (off - o') / (l * p ^ k) * (l * p ^ k) = l * p ^ k * ((off - o') / (l * p ^ k)) := Nat.mul_comm _ _
      have huc := huni 0 (husub _ hfirst) (fun h => by
          by_contra hc
          have : l * p ^ 1 ≤ l * p ^ (k - 1) := Nat.mul_le_mul_left l (Nat.pow_le_pow_right (by omega) (by omega))
          rw [Nat.pow_one] at this
          omega)
        (fun h => by
          by_contra hc
          have : k - 1 = 0 := by omega
          rw [this] at h; simp at h; omega)
      obtain ⟨child', hc', hu'⟩ := ih (by omega) hdvd' child hcp w1 huc (by omega) (by omega) (Or.inr hsm')
        (by rw [hpp]; omega) (by
          intro x h1 h2
          have := hfree x h1 h2
          simp only [look] at this
          rw [hidx x h1 h2, if_pos hfirst] at this
          rw [hlook]; exact this)
      refine ⟨.branch o' (l * p ^ k) m (update sub ((off - o') / (l * p ^ k)) child'), ?_, ?_⟩
      · rw [show List.range' ((off - o') / (l * p ^ k)) 1 = [(off - o') / (l * p ^ k)] from rfl]
        unfold setNodes
        rw [R.check_true hfirst, R.ok_bind, e1, hc', R.ok_bind]
        rfl
      · refine ⟨hjk, fun i hi => ?_⟩
        unfold update
        split
        · exact hu'
        · exact husub i hi

/-- The root of a tree of small ranges. -/
def SmallRoot (t : Tree α) : Prop := t.root = .absent ∨ ∀ k n, wf t.perNode t.leafSize t.root k 0 n → Uni 0 t.root k ∧ (t.dataSize ≤ t.leafSize * t.perNode → k = 0)

/-- In a tree of small ranges every range that is free and inside of a window can be inserted; if the tree is not larger than a
window, every one that is free. -/
theorem insert_window {t : Tree α} {rs : List (Range α)} (hh : Holds t rs) {off size : Nat} {v : α} (hp : 2 ≤ t.perNode)
    (hmul : t.perNode * t.leafSize < 2 ^ 64) (hu : SmallRoot t) (hs0 : 0 < size)
    (hin : off + size ≤ t.dataSize) (h64 : t.dataSize < 2 ^ 64) (hoff : t.leafSize ∣ off) (hsize : t.leafSize ∣ size)
    (hsm : t.dataSize ≤ t.leafSize * t.perNode ∨ size < t.leafSize * t.perNode ∧ InWindow t.perNode t.leafSize off size)
    (hap : ∀ r ∈ rs, r.apart ⟨off, size, v⟩) :
    ∃ t', insert t off size v = .ok t' ∧ SmallRoot t' := by
  have hl := hh.leaf
  have hls := Nat.le_of_dvd hs0 hsize
  obtain ⟨root, k, n, e1, hpres, w1, hn, hpk, hcov, hk, hlook, hun⟩ := ensureRoot_spec hh hls (by omega) (fun _ => hmul)
  have huroot : Uni 0 root k ∧ (t.dataSize ≤ t.leafSize * t.perNode → k = 0) := by
    by_cases hr : t.root = .absent
    · obtain ⟨k', he, hpk', hk2, hkd, hdiv⟩ := rootElement_spec t hl hmul
      have hk0 : t.dataSize ≤ t.leafSize * t.perNode → rootElement t = .ok t.leafSize := by
        intro hle
        unfold rootElement
        rw [R.mulU_ok hmul, R.ok_bind]
        have hgt : t.perNode * t.leafSize > t.leafSize := by
          have := Nat.mul_le_mul_right t.leafSize hp
          omega
        rw [if_pos hgt]
        unfold grow
        rw [if_neg (by omega), if_neg]
        have : t.dataSize / t.leafSize ≤ t.perNode := by
          calc t.dataSize / t.leafSize ≤ t.leafSize * t.perNode / t.leafSize := Nat.div_le_div_right hle
            _ = t.perNode := Nat.mul_div_cancel_left _ hl
        omega
      have hroot : createRoot t size = .ok root := by
        have h := e1
        unfold ensureRoot at h
        rw [hr] at h
        exact h
      unfold createRoot at hroot
      rw [he, R.ok_bind] at hroot
      have hE : 0 < t.leafSize * t.perNode ^ k' := Nat.mul_pos hl hpk'
      rw [R.check_true (by omega), R.ok_bind, R.pure_eq, R.ok.injEq] at hroot
      have hkk : k = k' := by
        split at hroot
        · subst hroot
          exact wf_level hl hp (by simp) w1 (⟨rfl, rfl, rfl⟩ : wf t.perNode t.leafSize (Node.leaf 0 (t.leafSize * t.perNode ^ k') _ fun _ => none) k' 0 _)
        · subst hroot
          exact Nat.pow_right_injective (show 2 ≤ t.perNode from hp) (Nat.eq_of_mul_eq_mul_left hl w1.2.1).symm
      subst hkk
      have hk0' : t.dataSize ≤ t.leafSize * t.perNode → k = 0 := by
        intro hle
        have := hk0 hle
        rw [he, R.ok.injEq] at this
        by_contra hc
        have h2 : t.leafSize * t.perNode ^ 1 ≤ t.leafSize * t.perNode ^ k := Nat.mul_le_mul_left _ (Nat.pow_le_pow_right (by omega) (by omega))
        rw [this, Nat.pow_one] at h2
        have := Nat.mul_le_mul_left t.leafSize hp
        omega
      refine ⟨?_, hk0'⟩
      by_cases hle : t.leafSize * t.perNode ^ k ≤ size
      · rw [if_pos hle] at hroot
        subst hroot
        show k ≤ 0
        rcases hsm with h | h
        · rw [hk0' h]
        · by_contra hc
          have h2 : t.leafSize * t.perNode ^ 1 ≤ t.leafSize * t.perNode ^ k := Nat.mul_le_mul_left _ (Nat.pow_le_pow_right (by omega) (by omega))
          rw [Nat.pow_one] at h2
          omega
      · rw [if_neg hle] at hroot
        subst hroot
        refine ⟨?_, fun _ _ => trivial⟩
        rcases Nat.eq_zero_or_pos k with h | h
        · rw [h] at hle; simp at hle; omega
        · exact h
    · have : root = t.root := by
        have h := e1
        unfold ensureRoot at h
        split at h
        · next h' => exact absurd h' hr
        · exact (R.ok.inj h).symm
      rw [this] at w1 ⊢
      rcases hu with hu | hu
      · exact absurd hu hr
      · exact hu k n w1
  obtain ⟨after, hafter, hua⟩ := insertNode_window (v := v) hl hp hoff hsize hs0 (t.dataSize + 1) hn (Nat.dvd_zero _) root hpres w1 huroot.1
    (by omega) (by omega) (by
      rcases hsm with h | h
      · exact Or.inl (huroot.2 h)
      · exact Or.inr h) (by omega) (fun x h1 h2 => by rw [hlook]; exact free_of_apart hh hin hap x h1 h2)
  have hok : insert t off size v = .ok { t with root := after } := by
    rw [insert_panicfree_root hh v hin h64 (Nat.mod_eq_zero_of_dvd hoff) (Nat.mod_eq_zero_of_dvd hsize) e1,
      hafter, R.ok_bind]
    rfl
  refine ⟨_, hok, Or.inr fun k' n' hw' => ?_⟩
  obtain ⟨d, -, -, hI⟩ := insertNode_shift hl hls _ hn hpk (Nat.dvd_zero _) root after w1 hafter
  rw [← wf_level hl hp hI.present hI.wf hw']
  exact ⟨hua, huroot.2⟩

/-- Ranges that follow each other from the start and are inside of windows are all accepted. -/
theorem insertAll_window {rs : List (Range α)} {t : Tree α} {before : List (Range α)} (hh : Holds t before) (hp : 2 ≤ t.perNode)
    (hmul : t.perNode * t.leafSize < 2 ^ 64) (hu : SmallRoot t) (h64 : t.dataSize < 2 ^ 64)
    (hr : ∀ r ∈ rs, 0 < r.size ∧ r.offset + r.size ≤ t.dataSize ∧ t.leafSize ∣ r.offset ∧ t.leafSize ∣ r.size ∧
      (t.dataSize ≤ t.leafSize * t.perNode ∨ r.size < t.leafSize * t.perNode ∧ InWindow t.perNode t.leafSize r.offset r.size))
    (hap : rs.Pairwise Range.apart) (hb : ∀ b ∈ before, ∀ r ∈ rs, b.apart r) : ∃ t', insertAll rs t = .ok t' := by
  induction rs generalizing t before with
  | nil => exact ⟨t, rfl⟩
  | cons r rs ih =>
    obtain ⟨h1, h2, h3, h4, h5⟩ := hr r (by simp)
    obtain ⟨t1, e1, hu1⟩ := insert_window hh (v := r.value) hp hmul hu h1 h2 h64 h3 h4 h5 (fun b hb' => hb b hb' r (by simp))
    have ha : Aligned t.perNode t.leafSize r.offset r.size := by
      intro k hk hle
      rcases Nat.eq_zero_or_pos k with rfl | hk0
      · simpa using h3
      · have h6 : t.leafSize * t.perNode ^ 1 ≤ t.leafSize * t.perNode ^ k := Nat.mul_le_mul_left _ (Nat.pow_le_pow_right (by omega) hk0)
        rw [Nat.pow_one] at h6
        have : r.offset = 0 := by
          rcases h5 with h5 | h5 <;> omega
        rw [this]; exact Nat.dvd_zero _
    obtain ⟨hh1, d1, d2, d3⟩ := insert_sound hh h1 ha e1
    rw [List.pairwise_cons] at hap
    obtain ⟨t', e⟩ := ih hh1 (by omega) (by rw [d2, d3]; exact hmul) hu1 (by omega)
      (fun s hs => by rw [d1, d2, d3]; exact hr s (by simp [hs])) hap.2 (fun b hb' s hs => by
        rw [List.mem_append, List.mem_singleton] at hb'
        rcases hb' with hb' | rfl
        · exact hb b hb' s (by simp [hs])
        · exact hap.1 s hs)
    exact ⟨t', by unfold insertAll; rw [e1, R.ok_bind, e]⟩

end Keramics.BlockTree
