import Verif.Lemmas.XmlPlistValues

/-! Lemmas about the model of XML property lists: from pairs to objects and back. -/

namespace Keramics.XmlPlist

open Spec.Plist

variable {f64 : List Char → Option (BitVec 64)}

@[simp] theorem rule_node (r : Rule) (t : List Char) (qs : List Pair) : (Pair.node r t qs).rule = r := rfl
@[simp] theorem text_node (r : Rule) (t : List Char) (qs : List Pair) : (Pair.node r t qs).text = t := rfl
@[simp] theorem inner_node (r : Rule) (t : List Char) (qs : List Pair) : (Pair.node r t qs).inner = qs := rfl

theorem second_three (a p z : Pair) : second [a, p, z] = .ok p := rfl

/-! ### Text is skipped -/

theorem arrayContent_text {obj : List Pair → R Object} {t ps} (h : OptText t ps) (qs : List Pair) (l : List Object) : arrayContent obj (ps ++ qs) l = arrayContent obj qs l := by
  rcases h with ⟨_, rfl⟩ | ⟨_, rfl⟩ <;> simp [arrayContent]

theorem lastObject_text {obj : List Pair → R Object} {t ps} (h : OptText t ps) (qs : List Pair) (o : Object) : lastObject obj (ps ++ qs) o = lastObject obj qs o := by
  rcases h with ⟨_, rfl⟩ | ⟨_, rfl⟩ <;> simp [lastObject]

theorem dictContent_text {obj : List Pair → R Object} {t ps} (h : OptText t ps) (qs : List Pair) (l : List (List Char × Object)) :
    dictContent obj (ps ++ qs) l = dictContent obj qs l := by
  rcases h with ⟨_, rfl⟩ | ⟨_, rfl⟩ <;> simp [dictContent]

theorem stringContent_text {t ps} (h : OptText t ps) (qs : List Pair) : stringContent (ps ++ qs) = (stringContent qs >>= fun s => .ok (t ++ s)) := by
  rcases h with ⟨_, rfl⟩ | ⟨rfl, rfl⟩
  · simp only [List.singleton_append, stringContent, rule_node, if_true, text_node]
    rfl
  · simp only [List.nil_append]
    cases stringContent qs <;> rfl

theorem other_rule {p : Pair} (h : p.rule ∈ otherRules) : p.rule ≠ .characterData ∧ p.rule ≠ .plistObjectElement ∧ p.rule ≠ .plistKeyAndObjectElementPair := by
  generalize p.rule = r at h
  simp only [otherRules, List.mem_cons, List.not_mem_nil, or_false] at h
  rcases h with rfl | rfl | rfl | rfl <;> exact ⟨nofun, nofun, nofun⟩

theorem objP_rule {n : Nat} {t p} (h : ObjP n t p) : p.rule = .plistObjectElement := by
  cases n with
  | zero => exact h.elim
  | succ n => obtain ⟨q, rfl, _⟩ := h; rfl

theorem keyP_rule {X : List Char → Pair → Prop} {t p} (h : KeyP X t p) : p.rule = .plistKeyAndObjectElementPair := by
  obtain ⟨_, _, _, _, _, _, _, rfl, _⟩ := h; rfl

/-! ### Soundness -/

theorem text_of {X : List Char → Pair → Prop} (hr : ∀ t p, X t p → p.rule = .plistObjectElement) {c ps s} (h : Mixed X c ps) (hs : stringContent ps = .ok s) : Text c ∧ s = c := by
  cases h with
  | text h =>
    have := stringContent_text h []
    rw [List.append_nil, hs] at this
    refine ⟨h.text, ?_⟩
    simpa [stringContent] using this
  | elem h1 h2 _ =>
    rw [stringContent_text h1] at hs
    simp [stringContent, hr _ _ h2] at hs
  | other h1 _ h3 _ =>
    rw [stringContent_text h1] at hs
    simp [stringContent, (other_rule h3).1] at hs

theorem items_of {X : List Char → Pair → Prop} {obj : List Pair → R Object} (hr : ∀ t p, X t p → p.rule = .plistObjectElement)
    (hX : ∀ t p v, X t p → obj p.inner = .ok v → IsObject f64 t v) {c ps} (h : Mixed X c ps) :
    (∀ l l', arrayContent obj ps l = .ok l' → ∃ k, l' = l ++ k ∧ IsItems f64 c k) ∧
    (∀ o o', lastObject obj ps o = .ok o' → ∃ k, o' = k.getLast?.getD o ∧ IsItems f64 c k) := by
  induction h with
  | text h =>
    constructor
    · intro l l' hl
      have := arrayContent_text (obj := obj) h [] l
      rw [List.append_nil, hl] at this
      cases this
      exact ⟨[], by simp, .nil _ h.text⟩
    · intro o o' ho
      have := lastObject_text (obj := obj) h [] o
      rw [List.append_nil, ho] at this
      cases this
      exact ⟨[], by simp, .nil _ h.text⟩
  | elem h1 h2 _ ih =>
    have hr2 := hr _ _ h2
    constructor
    · intro l l' hl
      rw [arrayContent_text h1] at hl
      simp only [arrayContent, hr2, reduceCtorEq, if_false, if_true] at hl
      obtain ⟨v, hv, hl⟩ := R.bind_eq_ok.1 hl
      obtain ⟨k, rfl, hk⟩ := ih.1 _ _ hl
      exact ⟨v :: k, by simp, .cons _ _ _ _ _ h1.text (hX _ _ _ h2 hv) hk⟩
    · intro o o' ho
      rw [lastObject_text h1] at ho
      simp only [lastObject, hr2, reduceCtorEq, if_false, if_true] at ho
      obtain ⟨v, hv, ho⟩ := R.bind_eq_ok.1 ho
      obtain ⟨k, rfl, hk⟩ := ih.2 _ _ ho
      refine ⟨v :: k, ?_, .cons _ _ _ _ _ h1.text (hX _ _ _ h2 hv) hk⟩
      rw [List.getLast?_cons]
      rfl
  | other h1 _ h3 _ _ =>
    have hr2 := other_rule h3
    constructor
    · intro l l' hl
      rw [arrayContent_text h1] at hl
      simp [arrayContent, hr2] at hl
    · intro o o' ho
      rw [lastObject_text h1] at ho
      simp [lastObject, hr2] at ho

theorem keyPair_eq {obj : List Pair → R Object} {X : List Char → Pair → Prop} (hr : ∀ t p, X t p → p.rule = .plistObjectElement) {b pb u pu} (pk : Pair) (hb : OptText b pb) (hu : X u pu) :
    keyPair obj (pk :: pb ++ [pu]) = (do
      let key ← stringElement pk.inner
      let o ← obj pu.inner
      R.require (o.isNone = false)
      return (key, o)) := by
  show keyPair obj (pk :: (pb ++ [pu])) = _
  unfold keyPair
  simp only
  rw [lastObject_text hb]
  simp only [lastObject, hr _ _ hu, reduceCtorEq, if_false, if_true, bind_assoc, R.ok_bind]

theorem pairs_value {X : List Char → Pair → Prop} {obj : List Pair → R Object} (hr : ∀ t p, X t p → p.rule = .plistObjectElement)
    (hX : ∀ t p v, X t p → obj p.inner = .ok v → IsObject f64 t v) {c ps} (h : Mixed (KeyP X) c ps) :
    ∀ l l', dictContent obj ps l = .ok l' → ∃ k, l' = l ++ k ∧ IsPairs f64 c k := by
  induction h with
  | text h =>
    intro l l' hl
    have := dictContent_text (obj := obj) h [] l
    rw [List.append_nil, hl] at this
    cases this
    exact ⟨[], by simp, .nil _ h.text⟩
  | elem h1 h2 _ ih =>
    have hr2 := keyP_rule h2
    intro l l' hl
    rw [dictContent_text h1] at hl
    simp only [dictContent, hr2, reduceCtorEq, if_false, if_true] at hl
    obtain ⟨v, hv, hl⟩ := R.bind_eq_ok.1 hl
    obtain ⟨k, rfl, hk⟩ := ih _ _ hl
    obtain ⟨_, b, u, pk, pb, pu, rfl, rfl, ⟨a, kc, z, _, pc, _, rfl, h3, ⟨_, rfl, h4⟩, h5, rfl⟩, h6, h7⟩ := h2
    rw [inner_node, keyPair_eq hr _ h6 h7] at hv
    obtain ⟨key, hkey, hv⟩ := R.bind_eq_ok.1 hv
    obtain ⟨o, ho, hv⟩ := R.bind_eq_ok.1 hv
    obtain ⟨_, _, hv⟩ := R.bind_eq_ok.1 hv
    cases hv
    unfold stringElement at hkey
    rw [inner_node, second_three, R.ok_bind, inner_node] at hkey
    obtain ⟨h8, rfl⟩ := text_of hr h4 hkey
    refine ⟨(key, o) :: k, by simp, ?_⟩
    exact .cons _ a key z b u _ _ _ h1.text h3 h8 h5 h6.text (hX _ _ _ h7 ho) hk
  | other h1 _ h3 _ _ =>
    have hr2 := other_rule h3
    intro l l' hl
    rw [dictContent_text h1] at hl
    simp [dictContent, hr2] at hl

theorem isObject_of (m : Nat) : ∀ {n t p v}, ObjP n t p → objectElement f64 m p.inner = .ok v → IsObject f64 t v := by
  induction m with
  | zero => intro n t p v _ h; cases h
  | succ m ih =>
    intro n t p v h hv
    cases n with
    | zero => exact h.elim
    | succ n =>
      obtain ⟨q, rfl, h⟩ := h
      rw [inner_node] at hv
      unfold objectElement at hv
      obtain ⟨o, ho, hv⟩ := R.bind_eq_ok.1 hv
      obtain ⟨_, _, hv⟩ := R.bind_eq_ok.1 hv
      cases hv
      have hr : ∀ t p, ObjP n t p → p.rule = .plistObjectElement := fun _ _ => objP_rule
      have hX : ∀ t p v, ObjP n t p → objectElement f64 m p.inner = .ok v → IsObject f64 t v := fun _ _ _ h1 h2 => ih h1 h2
      have hE : ∀ t p, ObjP n t p → Element t := fun _ _ => element_of
      rcases h with h | ⟨_, rfl, h⟩ | ⟨_, rfl, h⟩ | h | h | h | h | h | h
      · obtain ⟨a, c, z, qa, _, qz, rfl, h1, ⟨_, rfl, h2⟩, h3, rfl⟩ := h
        simp only [objectOfPair, rule_node, inner_node, second_three, R.ok_bind] at ho
        obtain ⟨l, hl, ho⟩ := R.bind_eq_ok.1 ho
        cases ho
        obtain ⟨k, rfl, hk⟩ := (items_of hr hX h2).1 _ _ hl
        exact .array _ c a z _ h1 hk h3 rfl
      · simp only [objectOfPair, rule_node] at ho
        cases ho
        exact .false _ h
      · simp only [objectOfPair, rule_node] at ho
        cases ho
        exact .true _ h
      · obtain ⟨a, c, z, qa, _, qz, rfl, h1, ⟨_, rfl, h2⟩, h3, rfl⟩ := h
        simp only [objectOfPair, dataElement, rule_node, inner_node, second_three, R.ok_bind, text_node] at ho
        obtain ⟨⟨b, s⟩, hb, ho⟩ := R.bind_eq_ok.1 ho
        cases ho
        exact .data _ b ⟨a, c, z, h1, ⟨content_of hE h2, (values_data c b).1 ⟨s, hb⟩⟩, h3, rfl⟩
      · obtain ⟨a, c, z, qa, _, qz, rfl, h1, ⟨_, rfl, h2⟩, h3, rfl⟩ := h
        simp only [objectOfPair, rule_node] at ho
        cases ho
      · obtain ⟨a, c, z, qa, _, qz, rfl, h1, ⟨_, rfl, h2⟩, h3, rfl⟩ := h
        simp only [objectOfPair, rule_node, inner_node, second_three, R.ok_bind] at ho
        obtain ⟨l, hl, ho⟩ := R.bind_eq_ok.1 ho
        cases ho
        obtain ⟨k, rfl, hk⟩ := pairs_value hr hX h2 _ _ hl
        exact .dict _ c a z _ h1 hk h3 rfl
      · obtain ⟨a, c, z, qa, _, qz, rfl, h1, ⟨_, rfl, h2⟩, h3, rfl⟩ := h
        simp only [objectOfPair, floatingPointElement, rule_node, inner_node, second_three, R.ok_bind, text_node] at ho
        cases hf : f64 c with
        | none => rw [hf] at ho; cases ho
        | some w =>
          rw [hf] at ho
          cases ho
          exact .real _ w ⟨a, c, z, h1, ⟨content_of hE h2, hf⟩, h3, rfl⟩
      · obtain ⟨a, c, z, qa, _, qz, rfl, h1, ⟨_, rfl, h2⟩, h3, rfl⟩ := h
        simp only [objectOfPair, integerElement, rule_node, inner_node, second_three, R.ok_bind, text_node] at ho
        cases hf : i64OfText c with
        | none => rw [hf] at ho; cases ho
        | some w =>
          rw [hf] at ho
          cases ho
          exact .integer _ w ⟨a, c, z, h1, (i64OfText_iff c w).1 hf, h3, rfl⟩
      · obtain ⟨a, c, z, qa, _, qz, rfl, h1, ⟨_, rfl, h2⟩, h3, rfl⟩ := h
        simp only [objectOfPair, stringElement, rule_node, inner_node, second_three, R.ok_bind] at ho
        obtain ⟨l, hl, ho⟩ := R.bind_eq_ok.1 ho
        cases ho
        obtain ⟨h4, rfl⟩ := text_of hr h2 hl
        exact .string _ l ⟨a, l, z, h1, ⟨h4, rfl⟩, h3, rfl⟩

/-! ### No panic but for dates -/

/-- No start of a date element. -/
def NoDate (t : List Char) : Prop := ¬ "<date".toList <:+: t

theorem NoDate.sub {t u : List Char} (h : NoDate t) (hu : u <:+: t) : NoDate u := fun h' => h (h'.trans hu)

theorem bind_ne_panic {α β : Type} {x : R α} {f : α → R β} (hx : x ≠ .panic) (hf : ∀ a, x = .ok a → f a ≠ .panic) : (x >>= f) ≠ .panic := by
  cases x with
  | ok a => exact hf a rfl
  | err => nofun
  | panic => exact absurd rfl hx

theorem stringContent_ne_panic : ∀ ps, stringContent ps ≠ .panic
  | [] => nofun
  | p :: ps => by
    unfold stringContent
    split
    · exact bind_ne_panic (stringContent_ne_panic ps) fun _ _ => nofun
    · nofun

theorem items_ne_panic {X : List Char → Pair → Prop} {obj : List Pair → R Object} (hr : ∀ t p, X t p → p.rule = .plistObjectElement)
    (hX : ∀ t p, X t p → NoDate t → obj p.inner ≠ .panic) {c ps} (h : Mixed X c ps) (hc : NoDate c) :
    (∀ l, arrayContent obj ps l ≠ .panic) ∧ ∀ o, lastObject obj ps o ≠ .panic := by
  induction h with
  | text h =>
    constructor
    · intro l; have := arrayContent_text (obj := obj) h [] l; rw [List.append_nil] at this; rw [this]; nofun
    · intro l; have := lastObject_text (obj := obj) h [] l; rw [List.append_nil] at this; rw [this]; nofun
  | elem h1 h2 _ ih =>
    have ih := ih (hc.sub ⟨_, [], by simp only [List.append_nil]; rfl⟩)
    have ho := hX _ _ h2 (hc.sub ⟨_, _, rfl⟩)
    have hr2 := hr _ _ h2
    constructor
    · intro l
      rw [arrayContent_text h1]
      simp only [arrayContent, hr2, reduceCtorEq, if_false, if_true]
      exact bind_ne_panic ho fun _ _ => ih.1 _
    · intro l
      rw [lastObject_text h1]
      simp only [lastObject, hr2, reduceCtorEq, if_false, if_true]
      exact bind_ne_panic ho fun _ _ => ih.2 _
  | other h1 _ h3 _ _ =>
    have hr2 := other_rule h3
    constructor
    · intro l
      rw [arrayContent_text h1]
      simp [arrayContent, hr2]
    · intro l
      rw [lastObject_text h1]
      simp [lastObject, hr2]

theorem stringElement_ne_panic {r s e : Rule} {label : String} {C : List Char → Pair → Prop} {t q} (h : ElP r s e label C t q) : stringElement q.inner ≠ .panic := by
  obtain ⟨_, _, _, _, pc, _, _, _, _, _, rfl⟩ := h
  exact stringContent_ne_panic pc.inner

theorem pairs_ne_panic {X : List Char → Pair → Prop} {obj : List Pair → R Object} (hr : ∀ t p, X t p → p.rule = .plistObjectElement)
    (hX : ∀ t p, X t p → NoDate t → obj p.inner ≠ .panic) {c ps} (h : Mixed (KeyP X) c ps) (hc : NoDate c) : ∀ l, dictContent obj ps l ≠ .panic := by
  induction h with
  | text h => intro l; have := dictContent_text (obj := obj) h [] l; rw [List.append_nil] at this; rw [this]; nofun
  | elem h1 h2 _ ih =>
    have ih := ih (hc.sub ⟨_, [], by simp only [List.append_nil]; rfl⟩)
    have hd := hc.sub ⟨_, _, rfl⟩
    have hr2 := keyP_rule h2
    intro l
    rw [dictContent_text h1]
    simp only [dictContent, hr2, reduceCtorEq, if_false, if_true]
    refine bind_ne_panic ?_ fun _ _ => ih _
    obtain ⟨_, b, u, pk, pb, pu, rfl, rfl, h3, h6, h7⟩ := h2
    rw [inner_node, keyPair_eq hr _ h6 h7]
    refine bind_ne_panic (stringElement_ne_panic h3) fun _ _ => bind_ne_panic (hX _ _ h7 (hd.sub ⟨_, [], by simp only [List.append_nil]; rfl⟩)) fun o _ => bind_ne_panic ?_ fun _ _ => nofun
    cases hn : o.isNone <;> simp [R.require]
  | other h1 _ h3 _ _ =>
    have hr2 := other_rule h3
    intro l
    rw [dictContent_text h1]
    simp [dictContent, hr2]

theorem object_ne_panic (n : Nat) : ∀ {m t p}, n ≤ m → ObjP n t p → NoDate t → objectElement f64 m p.inner ≠ .panic := by
  induction n with
  | zero => intro m t p _ h; exact h.elim
  | succ n ih =>
    rintro m t p hm ⟨q, rfl, h⟩ hd
    cases m with
    | zero => omega
    | succ m =>
      rw [inner_node]
      unfold objectElement
      refine bind_ne_panic ?_ fun _ _ => by simp [R.require]
      have hr : ∀ t p, ObjP n t p → p.rule = .plistObjectElement := fun _ _ => objP_rule
      have hX : ∀ t p, ObjP n t p → NoDate t → objectElement f64 m p.inner ≠ .panic := fun _ _ h1 h2 => ih (by omega) h1 h2
      rcases h with h | ⟨_, rfl, h⟩ | ⟨_, rfl, h⟩ | h | h | h | h | h | h
      · obtain ⟨a, c, z, qa, _, qz, rfl, h1, ⟨_, rfl, h2⟩, h3, rfl⟩ := h
        simp only [objectOfPair, rule_node, inner_node, second_three, R.ok_bind]
        exact bind_ne_panic ((items_ne_panic hr hX h2 (hd.sub ⟨_, _, rfl⟩)).1 _) fun _ _ => nofun
      · nofun
      · nofun
      · obtain ⟨a, c, z, qa, _, qz, rfl, h1, ⟨_, rfl, h2⟩, h3, rfl⟩ := h
        simp only [objectOfPair, dataElement, rule_node, inner_node, second_three, R.ok_bind]
        exact bind_ne_panic (values_ne_panic _ _ (Nat.le_refl _)) fun _ _ => nofun
      · obtain ⟨a, c, z, qa, _, qz, rfl, ⟨x, y, _, _, rfl⟩, _⟩ := h
        exact absurd ⟨[], x ++ y ++ ">".toList ++ c ++ z, by simp⟩ hd
      · obtain ⟨a, c, z, qa, _, qz, rfl, h1, ⟨_, rfl, h2⟩, h3, rfl⟩ := h
        simp only [objectOfPair, rule_node, inner_node, second_three, R.ok_bind]
        exact bind_ne_panic (pairs_ne_panic hr hX h2 (hd.sub ⟨_, _, rfl⟩) _) fun _ _ => nofun
      · obtain ⟨a, c, z, qa, _, qz, rfl, h1, ⟨_, rfl, h2⟩, h3, rfl⟩ := h
        simp only [objectOfPair, floatingPointElement, rule_node, inner_node, second_three, R.ok_bind, text_node]
        cases f64 c <;> nofun
      · obtain ⟨a, c, z, qa, _, qz, rfl, h1, ⟨_, rfl, h2⟩, h3, rfl⟩ := h
        simp only [objectOfPair, integerElement, rule_node, inner_node, second_three, R.ok_bind, text_node]
        cases i64OfText c <;> nofun
      · have hs := stringElement_ne_panic h
        obtain ⟨a, c, z, qa, _, qz, rfl, h1, ⟨_, rfl, h2⟩, h3, rfl⟩ := h
        simp only [objectOfPair, rule_node]
        exact bind_ne_panic hs fun _ _ => nofun

/-! ### Completeness -/

theorem other_head {u : List Char} (h : Other u) : ∃ v, u = '&' :: v ∨ u = '<' :: '!' :: v ∨ u = '<' :: '?' :: v := by
  rcases h with h | h | h | h
  · obtain ⟨v, rfl⟩ := ref_head h; exact ⟨_, .inl rfl⟩
  · obtain ⟨v, _, _, rfl⟩ := h; exact ⟨_, .inr (.inl rfl)⟩
  · obtain ⟨v, rfl⟩ := instruction_head h; exact ⟨_, .inr (.inr rfl)⟩
  · obtain ⟨v, rfl⟩ := comment_head h; exact ⟨_, .inr (.inl rfl)⟩

theorem object_other (n : Nat) {u : List Char} (h : Other u) (r : List Char) : object (n + 1) (u ++ r) = .fail := by
  unfold object
  obtain ⟨v, rfl | rfl | rfl⟩ := other_head h <;>
  exact rule_fail (alt_fail (element_fail (by simp)) (alt_fail (bool_fail (by simp)) (alt_fail (bool_fail (by simp)) (alt_fail (element_fail (by simp))
      (alt_fail (element_fail (by simp)) (alt_fail (element_fail (by simp)) (alt_fail (element_fail (by simp)) (alt_fail (element_fail (by simp)) (element_fail (by simp))))))))))

theorem keyPair_other (content object : Expr) {u : List Char} (h : Other u) (r : List Char) : keyPairOf content object (u ++ r) = .fail := by
  obtain ⟨v, rfl | rfl | rfl⟩ := other_head h <;> exact rule_fail (seq_fail (element_fail (by simp)))

theorem takes_piece_other {el : Expr} {u : List Char} (h : Other u) (he : ∀ r, el (u ++ r) = .fail) : Takes (piece el) u (fun _ => True) (fun ps => ∃ p, ps = [p] ∧ p.rule ∈ otherRules) := by
  refine Takes.right (fun r _ => he r) ?_
  have hm : ∀ {p : Expr} {r : Rule} {u : List Char}, r ∈ otherRules → Takes p u (fun _ => True) (fun ps => ∃ qs, ps = [.node r u qs]) →
      Takes p u (fun _ => True) (fun ps => ∃ p, ps = [p] ∧ p.rule ∈ otherRules) :=
    fun hr h => h.mono (fun _ h => h) fun _ ⟨_, h⟩ => ⟨_, h, hr⟩
  rcases h with h | h | h | h
  · exact Takes.left (hm (by decide) (takes_reference h))
  · obtain ⟨v, h1, h2, rfl⟩ := h
    exact Takes.right (fun r _ => reference_fail (noHead_cons.2 (by decide))) (Takes.left (hm (by decide) (takes_cdata ⟨v, h1, h2, rfl⟩)))
  · have hh := hm (by decide) (takes_instruction h)
    obtain ⟨v, rfl⟩ := instruction_head h
    exact Takes.right (fun r _ => reference_fail (noHead_cons.2 (by decide))) (Takes.right (fun r _ => rule_fail (seq_fail (lit_fail (by simp)))) (Takes.left hh))
  · have hh := hm (by decide) (takes_comment h)
    obtain ⟨v, rfl⟩ := comment_head h
    exact Takes.right (fun r _ => reference_fail (noHead_cons.2 (by decide))) (Takes.right (fun r _ => rule_fail (seq_fail (lit_fail (by simp))))
      (Takes.right (fun r _ => rule_fail (seq_fail (lit_fail (by simp)))) hh))

theorem other_first {u : List Char} (h : Other u) : ∃ c v, u = c :: v ∧ (c = '<' ∨ c = '&') := by
  obtain ⟨v, rfl | rfl | rfl⟩ := other_head h
  · exact ⟨_, _, rfl, .inr rfl⟩
  · exact ⟨_, _, rfl, .inl rfl⟩
  · exact ⟨_, _, rfl, .inl rfl⟩

theorem tag_first {label : String} {close : String} {t : List Char} (h : Tag ("<" ++ label) close t) (r : List Char) : ∃ c v, t ++ r = c :: v ∧ (c = '<' ∨ c = '&') := by
  obtain ⟨x, hx⟩ := tag_start h r
  exact ⟨'<', label.toList ++ x, by rw [hx]; simp, .inl rfl⟩

theorem element_first {t : List Char} (h : Element t) : ∃ c v, t = c :: v ∧ (c = '<' ∨ c = '&') := by
  cases h with
  | mixed label s c e _ h _ _ => rw [List.append_assoc]; exact tag_first h _
  | boolean label t _ h => have := tag_first h []; rwa [List.append_nil] at this
  | dict s c e h _ _ => rw [List.append_assoc]; exact tag_first (label := "dict") h _

/-- The pairs in a dictionary. -/
abbrev keysOf (n : Nat) : Expr := keyPairOf (contentOf .plistContent (object n)) (object n)

theorem takes_object {n : Nat} {t : List Char} {Q : List Pair → Prop}
    (h : Takes (objectAlt (contentOf .plistContent (object n)) (contentOf .plistDictContent (keysOf n))) t (fun _ => True) Q) :
    Takes (object (n + 1)) t (fun _ => True) (fun ps => ∃ p, ps = [p] ∧ p.rule = .plistObjectElement ∧ Q p.inner) := by
  have := h.rule .plistObjectElement
  unfold object
  exact this.mono (fun _ h => h) fun ps ⟨qs, h1, h2⟩ => ⟨_, h1, rfl, h2⟩

theorem takes_contentOf {r : Rule} {el : Expr} {c : List Char} {Q : List Pair → Prop} (h : Takes (mixed el) c Stop Q) :
    Takes (contentOf r el) c Stop (fun ps => ∃ qs, ps = [.node r c qs] ∧ Q qs) := h.rule r

theorem takes_keyPair {el obj : Expr} {s k e b u : List Char} {P : List Pair → Prop} {Q : Pair → Prop} (hs : Tag "<key" ">" s) (hk : Takes (mixed el) k Stop P) (he : EndTag "</key" e) (hb : Text b)
    (hu : Takes obj u (fun _ => True) (fun ps => ∃ p, ps = [p] ∧ Q p)) (hh : ∃ c v, u = c :: v ∧ (c = '<' ∨ c = '&')) :
    Takes (keyPairOf (contentOf .plistContent el) obj) (s ++ k ++ e ++ b ++ u) (fun _ => True)
      (fun ps => ∃ p pk pu qs a z, ps = [p] ∧ p.rule = .plistKeyAndObjectElementPair ∧ p.inner = [pk, cdPair b, pu] ∧ pk.inner = [a, .node .plistContent k qs, z] ∧ P qs ∧ Q pu) := by
  have h1 := takes_element (r := .plistKeyElement) (s := .plistKeyElementStartTag) (e := .plistKeyElementEndTag) (label := "key") hs (takes_contentOf (r := .plistContent) hk) he
  have h2 := (takes_characterData hb).some.seq hu (by
    obtain ⟨c, v, rfl, hc⟩ := hh
    exact fun r _ => noHead_cons.2 (by rcases hc with rfl | rfl <;> decide)) (R' := fun ps => ∃ p, ps = [cdPair b, p] ∧ Q p) (by rintro _ _ rfl ⟨p, rfl, h⟩; exact ⟨p, rfl, h⟩)
  have h3 := (h1.seq h2 (fun _ _ => trivial) (R' := fun ps => ∃ pk pu qs a z, ps = [pk, cdPair b, pu] ∧ pk.inner = [a, .node .plistContent k qs, z] ∧ P qs ∧ Q pu) (by
    rintro _ _ ⟨qa, _, qz, rfl, qs, rfl, h4⟩ ⟨p, rfl, h5⟩
    exact ⟨_, p, qs, _, _, rfl, rfl, h4, h5⟩)).rule .plistKeyAndObjectElementPair
  simp only [← List.append_assoc] at h3
  refine h3.mono (fun _ h => h) ?_
  rintro ps ⟨_, rfl, pk, pu, qs, a, z, rfl, h4, h5, h6⟩
  exact ⟨_, pk, pu, qs, a, z, rfl, rfl, rfl, h4, h5, h6⟩

mutual
  theorem takes_Element : ∀ {t : List Char}, Element t → ∀ n, t.length < n → Takes (object n) t (fun _ => True) (fun ps => ∃ p, ps = [p] ∧ True)
    | _, .mixed label s c e hl hs hc he, 0, h => by omega
    | _, .mixed label s c e hl hs hc he, n + 1, h => by
      have hne : 0 < s.length := List.length_pos_iff.2 (tag_ne (lt_ne label) hs)
      have := takes_Content hc n (by simp only [List.length_append] at h; omega)
      exact (takes_object (takes_objectAlt hl hs (takes_contentOf this) he)).mono (fun _ h => h) fun _ ⟨p, h, _⟩ => ⟨p, h, trivial⟩
    | _, .boolean label t hl ht, 0, h => by omega
    | _, .boolean label t hl ht, n + 1, h => by
      have hb : ∃ b : Bool, ("<" ++ label : String) = if b then "<true" else "<false" := by
        simp only [List.mem_cons, List.not_mem_nil, or_false] at hl
        rcases hl with rfl | rfl
        · exact ⟨false, rfl⟩
        · exact ⟨true, rfl⟩
      obtain ⟨b, hb⟩ := hb
      rw [hb] at ht
      exact (takes_object (takes_objectAlt_bool b ht)).mono (fun _ h => h) fun _ ⟨p, h, _⟩ => ⟨p, h, trivial⟩
    | _, .dict s c e hs hc he, 0, h => by omega
    | _, .dict s c e hs hc he, n + 1, h => by
      have hne : 0 < s.length := List.length_pos_iff.2 (tag_ne (by simp) hs)
      have := takes_Pairs hc n (by simp only [List.length_append] at h; omega)
      exact (takes_object (takes_objectAlt_dict hs (takes_contentOf this) he)).mono (fun _ h => h) fun _ ⟨p, h, _⟩ => ⟨p, h, trivial⟩

  theorem takes_Content : ∀ {c : List Char}, Content c → ∀ n, c.length < n → Takes (mixed (object n)) c Stop (fun _ => True)
    | _, .text t ht, n, h => (takes_mixed_text (object_stop n (by omega)) ht).mono (fun _ h => h) fun _ _ => trivial
    | _, .element t u w ht hu hw, n, h => by
      have h1 := takes_Element hu n (by simp only [List.length_append] at h; omega)
      have h2 := takes_Content hw n (by simp only [List.length_append] at h; omega)
      exact (takes_mixed_more ht (Takes.left h1) (element_first hu) h2).mono (fun _ h => h) fun _ _ => trivial
    | _, .other t u w ht hu hw, 0, h => by omega
    | _, .other t u w ht hu hw, n + 1, h => by
      have h2 := takes_Content hw (n + 1) (by simp only [List.length_append] at h; omega)
      exact (takes_mixed_more ht (takes_piece_other hu (object_other n hu)) (other_first hu) h2).mono (fun _ h => h) fun _ _ => trivial

  theorem takes_Pairs : ∀ {c : List Char}, Pairs c → ∀ n, c.length < n → Takes (mixed (keysOf n)) c Stop (fun _ => True)
    | _, .text t ht, n, h => (takes_mixed_text (keyPair_stop _ _) ht).mono (fun _ h => h) fun _ _ => trivial
    | _, .pair t s k e b u w ht hs hk he hb hu hw, n, h => by
      have h1 := takes_Element hu n (by simp only [List.length_append] at h; omega)
      have h2 := takes_Content hk n (by simp only [List.length_append] at h; omega)
      have h3 := takes_Pairs hw n (by simp only [List.length_append] at h; omega)
      have h4 := takes_keyPair hs h2 he hb h1 (element_first hu)
      refine (takes_mixed_more ht (Takes.left (h4.mono (fun _ h => h) fun ps ⟨p, _, _, _, _, _, h, _⟩ => (⟨p, h, trivial⟩ : ∃ p, ps = [p] ∧ True))) ?_ h3).mono (fun _ h => h) fun _ _ => trivial
      simp only [List.append_assoc]
      exact tag_first (label := "key") hs _
    | _, .other t u w ht hu hw, n, h => by
      have h2 := takes_Pairs hw n (by simp only [List.length_append] at h; omega)
      exact (takes_mixed_more ht (takes_piece_other hu (keyPair_other _ _ hu)) (other_first hu) h2).mono (fun _ h => h) fun _ _ => trivial
end

theorem isObject_some {t : List Char} {v : Object} (h : IsObject f64 t v) : v.isNone = false := by cases h <;> rfl

theorem elementOf_first {label : String} {content : List Char → Prop} {t : List Char} (h : ElementOf label content t) : ∃ c v, t = c :: v ∧ (c = '<' ∨ c = '&') := by
  obtain ⟨s, c, e, h, _, _, rfl⟩ := h
  rw [List.append_assoc]
  exact tag_first h _

theorem isObject_first {t : List Char} {v : Object} (h : IsObject f64 t v) : ∃ c v, t = c :: v ∧ (c = '<' ∨ c = '&') := by
  cases h with
  | array _ c s e l h _ _ ht => subst ht; rw [List.append_assoc]; exact tag_first (label := "array") h _
  | false _ h => have := tag_first (label := "false") h []; rwa [List.append_nil] at this
  | true _ h => have := tag_first (label := "true") h []; rwa [List.append_nil] at this
  | data _ b h => exact elementOf_first h
  | dict _ c s e l h _ _ ht => subst ht; rw [List.append_assoc]; exact tag_first (label := "dict") h _
  | real _ v h => exact elementOf_first h
  | integer _ n h => exact elementOf_first h
  | string _ s h => exact elementOf_first h

theorem objectElement_one {m : Nat} {q : Pair} {v : Object} (h : objectOfPair f64 (objectElement f64 m) q = .ok v) : objectElement f64 (m + 1) [q] = .ok v := by
  simp only [objectElement, h, R.ok_bind, R.require_true]
  rfl

/-- The object of the pairs in an element of an object. -/
def Means (f64 : List Char → Option (BitVec 64)) (n : Nat) (v : Object) (p : Pair) : Prop :=
  p.rule = .plistObjectElement ∧ ∀ m, n ≤ m → objectElement f64 m p.inner = .ok v

theorem means_of {n : Nat} {t : List Char} {v : Object} {Q : List Pair → Prop}
    (h : Takes (objectAlt (contentOf .plistContent (object n)) (contentOf .plistDictContent (keysOf n))) t (fun _ => True) Q)
    (hq : ∀ qs, Q qs → ∃ q, qs = [q] ∧ ∀ m, n ≤ m → objectOfPair f64 (objectElement f64 m) q = .ok v) :
    Takes (object (n + 1)) t (fun _ => True) (fun ps => ∃ p, ps = [p] ∧ Means f64 (n + 1) v p) := by
  refine (takes_object h).mono (fun _ h => h) ?_
  rintro ps ⟨p, rfl, h1, h2⟩
  obtain ⟨q, h3, h4⟩ := hq _ h2
  refine ⟨p, rfl, h1, ?_⟩
  intro m hm
  cases m with
  | zero => omega
  | succ m => rw [h3]; exact objectElement_one (h4 m (by omega))

theorem length_sub {s c e : List Char} {n : Nat} (hs : s ≠ []) (h : (s ++ c ++ e).length < n + 1) : c.length < n := by
  have hne : 0 < s.length := List.length_pos_iff.2 hs
  simp only [List.length_append] at h
  omega

mutual
  theorem takes_IsObject : ∀ {t : List Char} {v : Object}, IsObject f64 t v → ∀ n, t.length < n → Takes (object n) t (fun _ => True) (fun ps => ∃ p, ps = [p] ∧ Means f64 n v p)
    | _, _, _, 0, h => by omega
    | _, _, .array _ c s e l hs hc he ht, n + 1, h => by
      subst ht
      have := takes_IsItems hc n (length_sub (tag_ne (by simp) hs) h)
      refine means_of (takes_objectAlt (label := "array") (by simp) hs (takes_contentOf this) he) ?_
      rintro _ ⟨qa, _, qz, rfl, qs, rfl, h4⟩
      refine ⟨_, rfl, fun m hm => ?_⟩
      show objectOfPair f64 _ (Pair.node .plistArrayElement _ [_, _, _]) = _
      simp only [objectOfPair, rule_node, inner_node, second_three, R.ok_bind, (h4 m hm).1, List.nil_append]
      rfl
    | _, _, .false t ht, n + 1, h => by
      refine means_of (takes_objectAlt_bool Bool.false ht) ?_
      rintro _ ⟨qs, rfl⟩
      exact ⟨_, rfl, fun m hm => rfl⟩
    | _, _, .true t ht, n + 1, h => by
      refine means_of (takes_objectAlt_bool Bool.true ht) ?_
      rintro _ ⟨qs, rfl⟩
      exact ⟨_, rfl, fun m hm => rfl⟩
    | _, _, .data t b ⟨s, c, e, hs, ⟨hc, hd⟩, he, ht⟩, n + 1, h => by
      subst ht
      have := takes_Content hc n (length_sub (tag_ne (by simp) hs) h)
      refine means_of (takes_objectAlt (label := "data") (by simp) hs (takes_contentOf this) he) ?_
      rintro _ ⟨qa, _, qz, rfl, qs, rfl, h4⟩
      refine ⟨_, rfl, fun m hm => ?_⟩
      show objectOfPair f64 _ (Pair.node .plistDataElement _ [_, _, _]) = _
      obtain ⟨x, hx⟩ := (values_data c b).2 hd
      simp only [objectOfPair, dataElement, rule_node, inner_node, text_node, second_three, R.ok_bind, hx]
      rfl
    | _, _, .dict _ c s e l hs hc he ht, n + 1, h => by
      subst ht
      have := takes_IsPairs hc n (length_sub (tag_ne (by simp) hs) h)
      refine means_of (takes_objectAlt_dict hs (takes_contentOf this) he) ?_
      rintro _ ⟨qa, _, qz, rfl, qs, rfl, h4⟩
      refine ⟨_, rfl, fun m hm => ?_⟩
      show objectOfPair f64 _ (Pair.node .plistDictElement _ [_, _, _]) = _
      simp only [objectOfPair, rule_node, inner_node, second_three, R.ok_bind, h4 m hm, List.nil_append]
      rfl
    | _, _, .real t v ⟨s, c, e, hs, ⟨hc, hd⟩, he, ht⟩, n + 1, h => by
      subst ht
      have := takes_Content hc n (length_sub (tag_ne (by simp) hs) h)
      refine means_of (takes_objectAlt (label := "real") (by simp) hs (takes_contentOf this) he) ?_
      rintro _ ⟨qa, _, qz, rfl, qs, rfl, h4⟩
      refine ⟨_, rfl, fun m hm => ?_⟩
      show objectOfPair f64 _ (Pair.node .plistFloatingPointElement _ [_, _, _]) = _
      simp only [objectOfPair, floatingPointElement, rule_node, inner_node, text_node, second_three, R.ok_bind, hd]
    | _, _, .integer t v ⟨s, c, e, hs, hd, he, ht⟩, n + 1, h => by
      subst ht
      have := takes_mixed_text (object_stop n (by have := length_sub (tag_ne (by simp) hs) h; omega)) (integer_text hd)
      refine means_of (takes_objectAlt (label := "integer") (by simp) hs (takes_contentOf this) he) ?_
      rintro _ ⟨qa, _, qz, rfl, qs, rfl, h4⟩
      refine ⟨_, rfl, fun m hm => ?_⟩
      show objectOfPair f64 _ (Pair.node .plistIntegerElement _ [_, _, _]) = _
      simp only [objectOfPair, integerElement, rule_node, inner_node, text_node, second_three, R.ok_bind, (i64OfText_iff c v).2 hd]
    | _, _, .string t v ⟨s, c, e, hs, ⟨hc, hd⟩, he, ht⟩, n + 1, h => by
      subst ht hd
      have := takes_mixed_text (object_stop n (by have := length_sub (tag_ne (by simp) hs) h; omega)) hc
      refine means_of (takes_objectAlt (label := "string") (by simp) hs (takes_contentOf this) he) ?_
      rintro _ ⟨qa, _, qz, rfl, qs, rfl, h4⟩
      refine ⟨_, rfl, fun m hm => ?_⟩
      show objectOfPair f64 _ (Pair.node .plistStringElement _ [_, _, _]) = _
      simp only [objectOfPair, stringElement, rule_node, inner_node, second_three, R.ok_bind, h4, stringContent, if_true, text_node]
      show R.ok (Object.string (c ++ [])) = _
      rw [List.append_nil]

  theorem takes_IsItems : ∀ {c : List Char} {l : List Object}, IsItems f64 c l → ∀ n, c.length < n → Takes (mixed (object n)) c Stop
      (fun ps => ∀ m, n ≤ m → (∀ a, arrayContent (objectElement f64 m) ps a = .ok (a ++ l)) ∧ ∀ o, lastObject (objectElement f64 m) ps o = .ok (l.getLast?.getD o))
    | _, _, .nil t ht, n, h => by
      refine (takes_mixed_text (object_stop n (by omega)) ht).mono (fun _ h => h) ?_
      rintro _ rfl m _
      simp [arrayContent, lastObject]
    | _, _, .cons t u w v l ht hu hw, n, h => by
      have h1 := takes_IsObject hu n (by simp only [List.length_append] at h; omega)
      have h2 := takes_IsItems hw n (by simp only [List.length_append] at h; omega)
      refine (takes_mixed_more ht (Takes.left h1) (isObject_first hu) h2).mono (fun _ h => h) ?_
      rintro _ ⟨p, qs, rfl, ⟨h3, h4⟩, h5⟩ m hm
      constructor
      · intro a
        simp only [arrayContent, rule_node, if_true, h3, reduceCtorEq, if_false, h4 m hm, R.ok_bind, (h5 m hm).1, List.append_assoc, List.singleton_append]
      · intro o
        simp only [lastObject, rule_node, if_true, h3, reduceCtorEq, if_false, h4 m hm, R.ok_bind, (h5 m hm).2, List.getLast?_cons]
        rfl

  theorem takes_IsPairs : ∀ {c : List Char} {l : List (List Char × Object)}, IsPairs f64 c l → ∀ n, c.length < n → Takes (mixed (keysOf n)) c Stop
      (fun ps => ∀ m, n ≤ m → ∀ a, dictContent (objectElement f64 m) ps a = .ok (a ++ l))
    | _, _, .nil t ht, n, h => by
      refine (takes_mixed_text (keyPair_stop _ _) ht).mono (fun _ h => h) ?_
      rintro _ rfl m _
      simp [dictContent]
    | _, _, .cons t s k e b u w v l ht hs hk he hb hu hw, n, h => by
      have h1 := takes_IsObject hu n (by simp only [List.length_append] at h; omega)
      have h2 := takes_mixed_text (object_stop n (by omega)) hk
      have h3 := takes_IsPairs hw n (by simp only [List.length_append] at h; omega)
      have h4 := takes_keyPair hs h2 he hb h1 (isObject_first hu)
      have h5 : ∃ c v, s ++ k ++ e ++ b ++ u = c :: v ∧ (c = '<' ∨ c = '&') := by
        simp only [List.append_assoc]
        exact tag_first (label := "key") hs _
      refine (takes_mixed_more ht (Takes.left (h4.mono (fun _ h => h) (Q' := fun ps => ∃ p, ps = [p] ∧ p.rule = .plistKeyAndObjectElementPair ∧
        ∀ m, n ≤ m → keyPair (objectElement f64 m) p.inner = .ok (k, v)) ?_)) h5 h3).mono (fun _ h => h) ?_
      · rintro ps ⟨p, pk, pu, qs, a, z, rfl, h6, h7, h8, rfl, h9, h10⟩
        refine ⟨p, rfl, h6, fun m hm => ?_⟩
        rw [h7]
        simp only [keyPair, stringElement, h8, second_three, R.ok_bind, inner_node, stringContent, rule_node, if_true, text_node, R.pure_eq, lastObject, h9, reduceCtorEq, if_false,
          h10 m hm, isObject_some hu, R.require_true, List.append_nil]
      · rintro _ ⟨p, qs, rfl, ⟨h6, h7⟩, h8⟩ m hm a
        simp only [dictContent, rule_node, if_true, h6, reduceCtorEq, if_false, h7 m hm, R.ok_bind, h8 m hm, List.append_assoc, List.singleton_append]
end

/-! ### Documents -/

theorem gives_eoi (n : Nat) : Gives n eoi (fun t ps => t = [] ∧ ∃ p, ps = [p] ∧ p.rule = .eoi) := by
  intro s hs
  by_cases h : s = []
  · subst h
    exact .inl ⟨[], [], [.node .eoi [] []], rfl, rfl, rfl, _, rfl, rfl⟩
  · right
    exact rule_fail (by rw [if_neg h])

theorem eoi_rest {s rest : List Char} {ps : List Pair} (h : eoi s = .ok rest ps) : rest = [] := by
  by_cases hs : s = []
  · subst hs
    cases h
    rfl
  · have : eoi s = .fail := rule_fail (by rw [if_neg hs])
    rw [this] at h
    cases h

theorem rule_inv {r : Rule} {p : Expr} {s rest : List Char} {ps : List Pair} (h : rule r p s = .ok rest ps) : ∃ qs, p s = .ok rest qs := by
  unfold rule at h
  cases hp : p s with
  | ok r' qs => rw [hp] at h; cases h; exact ⟨qs, rfl⟩
  | fail => rw [hp] at h; cases h
  | endless => rw [hp] at h; cases h

theorem document_rest {n : Nat} {s rest : List Char} {ps : List Pair} (h : plistDocument n s = .ok rest ps) : rest = [] := by
  obtain ⟨_, h⟩ := rule_inv h
  obtain ⟨_, _, _, _, h, _⟩ := seq_inv h
  obtain ⟨_, _, _, _, h, _⟩ := seq_inv h
  obtain ⟨_, _, _, _, h, _⟩ := seq_inv h
  obtain ⟨_, _, _, _, h, _⟩ := seq_inv h
  exact eoi_rest h

/-- A byte order mark. -/
def bomB (c : Char) : Bool := within [(0xfeff, 0xfeff)] c

theorem bom_iff (c : Char) : bomB c = true ↔ c = Char.ofNat 0xfeff := by
  unfold bomB within
  simp only [List.any_cons, List.any_nil, Bool.or_false, Bool.and_eq_true, decide_eq_true_eq]
  constructor
  · rintro ⟨h1, h2⟩
    have h3 : c.toNat = 0xfeff := by omega
    rw [← h3, Char.ofNat_toNat]
  · rintro rfl
    decide

theorem gives_bom (n : Nat) : Gives n (opt byteOrderMark) (fun t ps => Maybe (· = [Char.ofNat 0xfeff]) t ∧ ps = []) := by
  unfold byteOrderMark
  rw [one_eq]
  refine (gives_sat n bomB).opt.mono ?_
  rintro t ps (⟨⟨c, rfl, hc⟩, rfl⟩ | ⟨rfl, rfl⟩)
  · exact ⟨.inr (by rw [(bom_iff c).1 hc]), rfl⟩
  · exact ⟨.inl rfl, rfl⟩

theorem gives_document (n : Nat) : Gives n (plistDocument n) (fun t ps => ∃ d m p e x pr q ms eo, ps = [d] ∧ d.inner = pr :: q :: ms ++ [eo] ∧ t = m ++ p ++ e ++ x ∧
    Maybe (· = [Char.ofNat 0xfeff]) m ∧ Prolog p ∧ pr.rule = .plistProlog ∧ Misc x ∧ (∀ y ∈ ms, y.rule = .miscellaneous) ∧ eo.rule = .eoi ∧
    ElP .plistElement .plistElementStartTag .plistElementEndTag "plist" (ContP .plistContent (ObjP n)) e q) := by
  refine (Gives.rule .plistDocument ((gives_bom n).seq ((gives_prolog n).seq ((gives_element .plistElement .plistElementStartTag .plistElementEndTag "plist"
    (gives_content .plistContent (gives_object n) fun _ _ => objP_ne)).seq ((gives_misc n).seq (gives_eoi n)))))).mono ?_
  rintro t ps ⟨_, rfl, m, _, _, _, rfl, rfl, ⟨h1, rfl⟩, p, _, _, _, rfl, rfl, ⟨h2, _, rfl⟩, e, _, _, _, rfl, rfl, ⟨q, rfl, h3⟩, x, _, ms, _, rfl, rfl, ⟨h4, h5⟩, rfl, eo, rfl, h6⟩
  exact ⟨_, m, p, e, x, _, q, ms, eo, rfl, rfl, by simp, h1, h2, rfl, h4, h5, h6, h3⟩

theorem loop_misc {n : Nat} {ms : List Pair} (hm : ∀ y ∈ ms, y.rule = .miscellaneous) (eo : Pair) (he : eo.rule = .eoi) (o : Object) :
    documentLoop f64 n (ms ++ [eo]) o = .ok o := by
  induction ms with
  | nil => simp [documentLoop, he]
  | cons y ms ih =>
    have h1 := hm y List.mem_cons_self
    rw [List.cons_append]
    simp only [documentLoop, h1, reduceCtorEq, if_false, true_or, or_true, if_true]
    exact ih fun z hz => hm z (List.mem_cons_of_mem _ hz)

theorem loop_document {n : Nat} {ms : List Pair} (hm : ∀ y ∈ ms, y.rule = .miscellaneous) {pr q eo : Pair} (hp : pr.rule = .plistProlog) (hq : q.rule = .plistElement) (he : eo.rule = .eoi)
    (o : Object) : documentLoop f64 n (pr :: q :: ms ++ [eo]) o = rootElement f64 n q.inner := by
  simp only [List.cons_append, documentLoop, hp, hq, reduceCtorEq, if_false, or_true, if_true]
  cases hr : rootElement f64 n q.inner with
  | ok v => rw [R.ok_bind]; exact loop_misc hm eo he v
  | err => rfl
  | panic => rfl

/-- The run on a text: it is refused, or its pairs are as the grammar says. -/
theorem parse_run (f64 : List Char → Option (BitVec 64)) (text : List Char) : parse f64 text = .err ∨
    ∃ m p a c z x ps, text = m ++ p ++ (a ++ c ++ z) ++ x ∧ Maybe (· = [Char.ofNat 0xfeff]) m ∧ Prolog p ∧ Tag "<plist" ">" a ∧ EndTag "</plist" z ∧ Misc x ∧
      Mixed (ObjP (text.length + 1)) c ps ∧ parse f64 text = lastObject (objectElement f64 (text.length + 1)) ps .none := by
  rcases gives_document (text.length + 1) text (by omega) with ⟨t, rest, ps, h1, h2, d, m, p, e, x, pr, q, ms, eo, rfl, h3, rfl, h4, h5, h6, h7, h8, h9, a, c, z, qa, pc, qz, rfl, h10,
    ⟨ps, rfl, h11⟩, h12, h13⟩ | h
  · right
    have := document_rest h1
    subst this
    rw [List.append_nil] at h2
    refine ⟨m, p, a, c, z, x, ps, h2, h4, h5, h10, h12, h7, h11, ?_⟩
    unfold parse
    rw [h1]
    simp only [h3]
    rw [loop_document h8 h6 (by rw [h13]; rfl) h9, h13]
    unfold rootElement
    rw [inner_node, second_three, R.ok_bind, inner_node]
  · left
    unfold parse
    rw [h]

theorem prolog_bom {p : List Char} (h : Prolog p) (r : List Char) : NoHead bomB (p ++ '<' :: r) := by
  have hlt : ∀ v, NoHead bomB ('<' :: v) := fun v => noHead_cons.2 (by decide)
  have hmisc : ∀ m, Misc m → ∀ v, NoHead bomB v → NoHead bomB (m ++ v) := by
    intro m hm v hv
    cases hm with
    | nil => exact hv
    | space c t h _ => exact noHead_cons.2 (by rcases h with rfl | rfl | rfl | rfl <;> decide)
    | comment u t h _ => obtain ⟨w, rfl⟩ := comment_head h; exact hlt _
    | instruction u t h _ => obtain ⟨w, rfl⟩ := instruction_head h; exact hlt _
  obtain ⟨d, m, x, hd, hm, hx, rfl⟩ := h
  have hx' : NoHead bomB (x ++ '<' :: r) := by
    rcases hx with rfl | ⟨y, n, hy, _, rfl⟩
    · exact hlt _
    · obtain ⟨_, _, _, _, _, _, _, _, _, _, _, _, _, _, rfl⟩ := hy
      exact hlt _
  have h2 := hmisc m hm _ hx'
  rcases hd with rfl | ⟨v, e, a, s, _, _, _, _, rfl⟩
  · simpa using h2
  · exact hlt _

theorem takes_eoi : Takes eoi [] (· = []) (fun ps => ∃ p, ps = [p] ∧ p.rule = .eoi) := by
  rintro rest rfl
  exact ⟨[.node .eoi [] []], rfl, _, rfl, rfl⟩

theorem takes_document {n : Nat} {m p a c z x : List Char} {Q : List Pair → Prop} (hm : Maybe (· = [Char.ofNat 0xfeff]) m) (hp : Prolog p) (ha : Tag "<plist" ">" a)
    (hc : Takes (mixed (object n)) c Stop Q) (hz : EndTag "</plist" z) (hx : Misc x) :
    ∃ d pr qa qs qz ms eo, plistDocument n (m ++ p ++ (a ++ c ++ z) ++ x) = .ok [] [d] ∧
      d.inner = pr :: .node .plistElement (a ++ c ++ z) [.node .plistElementStartTag a qa, .node .plistContent c qs, .node .plistElementEndTag z qz] :: ms ++ [eo] ∧
      pr.rule = .plistProlog ∧ (∀ y ∈ ms, y.rule = .miscellaneous) ∧ eo.rule = .eoi ∧ Q qs := by
  have h1 := takes_element (r := .plistElement) (s := .plistElementStartTag) (e := .plistElementEndTag) (label := "plist") ha (takes_contentOf (r := .plistContent) hc) hz
  have h2 := (takes_misc hx).seq takes_eoi (by
    rintro r rfl
    exact ⟨nofun, by simp, by simp⟩) (R' := fun ps => ∃ ms eo, ps = ms ++ [eo] ∧ (∀ y ∈ ms, y.rule = .miscellaneous) ∧ eo.rule = .eoi)
    (by rintro ms _ h ⟨eo, rfl, h'⟩; exact ⟨ms, eo, rfl, h, h'⟩)
  have hplist : ∀ r : List Char, ∃ r', a ++ c ++ z ++ (x ++ [] ++ r) = "<plist".toList ++ r' := by
    intro r
    obtain ⟨w, hw⟩ := tag_start ha (c ++ z ++ (x ++ [] ++ r))
    exact ⟨w, by rw [← hw]; simp⟩
  have h3 := (takes_prolog hp).seq (h1.seq h2 (fun _ _ => trivial)
    (R' := fun ps => ∃ qa qs qz ms eo, ps = .node .plistElement (a ++ c ++ z) [.node .plistElementStartTag a qa, .node .plistContent c qs, .node .plistElementEndTag z qz] :: ms ++ [eo] ∧
      (∀ y ∈ ms, y.rule = .miscellaneous) ∧ eo.rule = .eoi ∧ Q qs)
    (by rintro _ _ ⟨qa, _, qz, rfl, qs, rfl, h⟩ ⟨ms, eo, rfl, h', h''⟩; exact ⟨qa, qs, qz, ms, eo, rfl, h', h'', h⟩))
    (by intro r _; rw [List.append_assoc]; exact hplist r)
    (R' := fun ps => ∃ pr qa qs qz ms eo,
      ps = pr :: .node .plistElement (a ++ c ++ z) [.node .plistElementStartTag a qa, .node .plistContent c qs, .node .plistElementEndTag z qz] :: ms ++ [eo] ∧
      pr.rule = .plistProlog ∧ (∀ y ∈ ms, y.rule = .miscellaneous) ∧ eo.rule = .eoi ∧ Q qs)
    (by rintro _ _ ⟨qs', rfl⟩ ⟨qa, qs, qz, ms, eo, rfl, h, h', h''⟩; exact ⟨_, qa, qs, qz, ms, eo, rfl, rfl, h, h', h''⟩)
  have h4 : Takes (opt byteOrderMark) m (fun r => NoHead bomB r) (· = []) := by
    unfold byteOrderMark
    rw [one_eq]
    rcases hm with rfl | rfl
    · exact takes_none fun r hr => sat_fail hr
    · exact (takes_sat (f := within [(0xfeff, 0xfeff)]) (by decide) _).some
  have h5 : ∀ {e : Expr} {P : List Pair → Prop}, Takes e (p ++ (a ++ c ++ z ++ (x ++ []))) (· = []) P → Takes (opt byteOrderMark ~~ e) (m ++ (p ++ (a ++ c ++ z ++ (x ++ [])))) (· = []) P := by
    intro e P he
    refine h4.seq he ?_ (by rintro _ _ rfl h; exact h)
    intro r _
    obtain ⟨w, hw⟩ := hplist r
    rw [List.append_assoc, List.append_assoc, hw]
    exact prolog_bom hp _
  have h5 := ((h5 h3).rule .plistDocument) [] rfl
  obtain ⟨ps, h6, qs', rfl, pr, qa, qs, qz, ms, eo, h7, h8, h9, h10, h11⟩ := h5
  refine ⟨.node .plistDocument (m ++ (p ++ (a ++ c ++ z ++ (x ++ [])))) qs', pr, qa, qs, qz, ms, eo, ?_, h7, h8, h9, h10, h11⟩
  have e : m ++ p ++ (a ++ c ++ z) ++ x = m ++ (p ++ (a ++ c ++ z ++ (x ++ []))) ++ [] := by simp
  rw [e]
  exact h6

/-- The run on a text of the grammar. -/
theorem parse_takes (f64 : List Char → Option (BitVec 64)) {n : Nat} {m p a c z x : List Char} {Q : List Pair → Prop} (hm : Maybe (· = [Char.ofNat 0xfeff]) m) (hp : Prolog p) (ha : Tag "<plist" ">" a)
    (hn : n = (m ++ p ++ (a ++ c ++ z) ++ x).length + 1) (hc : Takes (mixed (object n)) c Stop Q) (hz : EndTag "</plist" z) (hx : Misc x) :
    ∃ qs, parse f64 (m ++ p ++ (a ++ c ++ z) ++ x) = lastObject (objectElement f64 n) qs .none ∧ Q qs := by
  obtain ⟨d, pr, qa, qs, qz, ms, eo, h1, h2, h3, h4, h5, h6⟩ := takes_document hm hp ha hc hz hx
  refine ⟨qs, ?_, h6⟩
  unfold parse
  rw [← hn, h1]
  simp only [h2]
  rw [loop_document h4 h3 rfl h5]
  unfold rootElement
  rw [inner_node, second_three, R.ok_bind, inner_node]

end Keramics.XmlPlist
