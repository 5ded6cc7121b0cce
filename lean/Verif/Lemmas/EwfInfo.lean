import Verif.Lemmas.Ewf
import Verif.Spec.EwfInfo

/-! # Lemmas: what EWF images say about the acquisition -/

namespace Keramics.EwfInfo
open Keramics.Spec Keramics.Spec.Ewf Keramics.EwfImage

/-! ## Lines -/

theorem byteLoop_line (l rest : List Byte) (last : Byte) (acc : List Byte) (h : ∀ x ∈ l, x ≠ 0#8 ∧ x ≠ 0x0a#8) :
    byteLoop (l ++ rest) last acc = byteLoop rest (l.getLast?.getD last) (acc ++ l) := by
  induction l generalizing last acc with
  | nil => simp
  | cons x l ih =>
    rw [List.cons_append, byteLoop, if_neg (h x (by simp)).1, if_neg (h x (by simp)).2, ih _ _ fun y hy => h y (by simp [hy])]
    rw [List.append_assoc, List.singleton_append]
    cases l with
    | nil => simp
    | cons y l => rw [List.getLast?_cons_cons, List.getLast?_eq_some_getLast (List.cons_ne_nil y l)]; rfl

theorem byteLine_eol (l rest eol : List Byte) (h : ∀ x ∈ l, x ≠ 0#8 ∧ x ≠ 0x0a#8 ∧ x ≠ 0x0d#8) (he : eol = [0x0a#8] ∨ eol = [0x0d#8, 0x0a#8]) :
    byteLine (l ++ eol ++ rest) = (some l, rest) := by
  unfold byteLine
  rw [List.append_assoc, byteLoop_line _ _ _ _ fun x hx => ⟨(h x hx).1, (h x hx).2.1⟩, List.nil_append]
  have hl : l.getLast?.getD 0#8 ≠ 0x0d#8 := by
    cases e : l.getLast? with
    | none => simp
    | some x => exact (h x (List.mem_of_getLast? e)).2.2
  rcases he with rfl | rfl
  · rw [List.singleton_append, byteLoop, if_neg (by decide), if_pos rfl, if_neg hl]
  · rw [List.cons_append, byteLoop, if_neg (by decide), if_neg (by decide), List.singleton_append, byteLoop, if_neg (by decide), if_pos rfl,
      if_pos rfl, List.dropLast_concat]

/-- Units as bytes. -/
def coded (big : Bool) (units : List Nat) : List Byte :=
  units.flatMap fun x => if big then [BitVec.ofNat 8 (x / 256), BitVec.ofNat 8 x] else [BitVec.ofNat 8 x, BitVec.ofNat 8 (x / 256)]

theorem coded_append (big : Bool) (a b : List Nat) : coded big (a ++ b) = coded big a ++ coded big b := by
  unfold coded; rw [List.flatMap_append]

theorem unit_coded (big : Bool) {x : Nat} (h : x < 65536) : 
    unit big (if big then BitVec.ofNat 8 (x / 256) else BitVec.ofNat 8 x) (if big then BitVec.ofNat 8 x else BitVec.ofNat 8 (x / 256)) = x := by
  cases big
  · simp only [unit, leNat, BitVec.toNat_ofNat, Bool.false_eq_true, if_false]; omega
  · simp only [unit, beNat, List.reverse_cons, List.reverse_nil, List.nil_append, List.singleton_append, leNat, BitVec.toNat_ofNat, if_true]; omega

theorem coded_cons (big : Bool) (x : Nat) (l : List Nat) : coded big (x :: l) =
    (if big then BitVec.ofNat 8 (x / 256) else BitVec.ofNat 8 x) :: (if big then BitVec.ofNat 8 x else BitVec.ofNat 8 (x / 256)) :: coded big l := by
  cases big <;> rfl

theorem utf16Loop_cons (big : Bool) {x : Nat} (h : x < 65536) (l : List Nat) (rest : List Byte) (last : Nat) (acc : List Nat) :
    utf16Loop big (coded big (x :: l) ++ rest) last acc =
      if x = 0 then .ok (none, coded big l ++ rest)
      else if x = 0x0a then .ok (some (if last = 0x0d then acc.dropLast else acc), coded big l ++ rest)
      else utf16Loop big (coded big l ++ rest) x (acc ++ [x]) := by
  rw [coded_cons, List.cons_append, List.cons_append, utf16Loop, unit_coded big h]

theorem utf16Loop_line (big : Bool) (l : List Nat) (rest : List Byte) (last : Nat) (acc : List Nat) (h : ∀ x ∈ l, x < 65536 ∧ x ≠ 0 ∧ x ≠ 0x0a) :
    utf16Loop big (coded big l ++ rest) last acc = utf16Loop big rest (l.getLast?.getD last) (acc ++ l) := by
  induction l generalizing last acc with
  | nil => simp [coded]
  | cons x l ih =>
    obtain ⟨h1, h2, h3⟩ := h x (by simp)
    rw [utf16Loop_cons big h1, if_neg h2, if_neg h3, ih _ _ fun y hy => h y (by simp [hy])]
    rw [List.append_assoc, List.singleton_append]
    cases l with
    | nil => simp
    | cons y l => rw [List.getLast?_cons_cons, List.getLast?_eq_some_getLast (List.cons_ne_nil y l)]; rfl

theorem utf16Line_eol (big : Bool) (l eol rest : List Nat) (extra : List Byte) (h : ∀ x ∈ l, x < 65536 ∧ x ≠ 0 ∧ x ≠ 0x0a ∧ x ≠ 0x0d)
    (he : eol = [0x0a] ∨ eol = [0x0d, 0x0a]) :
    utf16Line big (coded big (l ++ eol ++ rest) ++ extra) = .ok (some l, coded big rest ++ extra) := by
  unfold utf16Line
  rw [List.append_assoc, coded_append, List.append_assoc, utf16Loop_line _ _ _ _ _ fun x hx => ⟨(h x hx).1, (h x hx).2.1, (h x hx).2.2.1⟩, List.nil_append]
  have hl : l.getLast?.getD 0 ≠ 0x0d := by
    cases e : l.getLast? with
    | none => simp
    | some x => exact (h x (List.mem_of_getLast? e)).2.2.2
  rcases he with rfl | rfl
  · rw [List.singleton_append, utf16Loop_cons big (by decide), if_neg (by decide), if_pos rfl, if_neg hl]
  · rw [List.cons_append, utf16Loop_cons big (by decide), if_neg (by decide), if_neg (by decide), List.singleton_append,
      utf16Loop_cons big (by decide), if_neg (by decide), if_pos rfl, if_pos rfl, List.dropLast_concat]

theorem split_cell {α : Type} [DecidableEq α] (sep : α) (l : List α) (h : sep ∉ l) : split sep l = [l] := by
  induction l with
  | nil => rfl
  | cons x l ih =>
    rw [List.mem_cons, not_or] at h
    rw [split, if_neg (Ne.symm h.1), ih h.2]

theorem split_append {α : Type} [DecidableEq α] (sep : α) (l rest : List α) (h : sep ∉ l) : split sep (l ++ sep :: rest) = l :: split sep rest := by
  induction l with
  | nil => simp [split]
  | cons x l ih =>
    rw [List.mem_cons, not_or] at h
    rw [List.cons_append, split, if_neg (Ne.symm h.1), ih h.2]

theorem split_intercalate {α : Type} [DecidableEq α] (sep : α) (cells : List (List α)) (hne : cells ≠ []) (h : ∀ c ∈ cells, sep ∉ c) :
    split sep ([sep].intercalate cells) = cells := by
  induction cells with
  | nil => exact absurd rfl hne
  | cons c cells ih =>
    cases cells with
    | nil => simpa using split_cell sep c (h c (by simp))
    | cons d cells =>
      have : [sep].intercalate (c :: d :: cells) = c ++ sep :: [sep].intercalate (d :: cells) := by
        simp [List.intercalate]
      rw [this, split_append _ _ _ (h c (by simp)), ih (by simp) fun x hx => h x (by simp [hx])]

theorem mem_intercalate {α : Type} {sep x : α} {cells : List (List α)} (h : x ∈ [sep].intercalate cells) : x = sep ∨ ∃ c ∈ cells, x ∈ c := by
  induction cells with
  | nil => simp [List.intercalate] at h
  | cons c cells ih =>
    cases cells with
    | nil => exact Or.inr ⟨c, by simp, by simpa [List.intercalate] using h⟩
    | cons d cells =>
      have e : [sep].intercalate (c :: d :: cells) = c ++ sep :: [sep].intercalate (d :: cells) := by
        simp [List.intercalate]
      rw [e, List.mem_append, List.mem_cons] at h
      rcases h with h | h | h
      · exact Or.inr ⟨c, by simp, h⟩
      · exact Or.inl h
      · rcases ih h with h | ⟨y, h1, h2⟩
        · exact Or.inl h
        · exact Or.inr ⟨y, by simp [List.mem_cons.1 h1], h2⟩

theorem intercalate_mem {α : Type} {sep x : α} {c : List α} {cells : List (List α)} (hc : c ∈ cells) (hx : x ∈ c) : x ∈ [sep].intercalate cells := by
  induction cells with
  | nil => simp at hc
  | cons d cells ih =>
    cases cells with
    | nil =>
      rw [List.mem_singleton] at hc
      subst hc
      simpa [List.intercalate] using hx
    | cons e cells =>
      have he : [sep].intercalate (d :: e :: cells) = d ++ sep :: [sep].intercalate (e :: cells) := by
        simp [List.intercalate]
      rw [he, List.mem_append, List.mem_cons]
      rcases List.mem_cons.1 hc with rfl | hc
      · exact Or.inl hx
      · exact Or.inr (Or.inr (ih hc))

theorem map_intercalate {α β : Type} (f : α → β) (sep : α) (cells : List (List α)) :
    ([sep].intercalate cells).map f = [f sep].intercalate (cells.map (List.map f)) := by
  induction cells with
  | nil => rfl
  | cons c cells ih =>
    cases cells with
    | nil => simp [List.intercalate]
    | cons d cells =>
      have e : [sep].intercalate (c :: d :: cells) = c ++ sep :: [sep].intercalate (d :: cells) := by
        simp [List.intercalate]
      have e' : [f sep].intercalate (c.map f :: d.map f :: cells.map (List.map f)) =
        c.map f ++ f sep :: [f sep].intercalate (d.map f :: cells.map (List.map f)) := by
        simp [List.intercalate]
      rw [e, List.map_append, List.map_cons, ih, List.map_cons, List.map_cons, List.map_cons, e']

/-! ## Values -/

theorem byteTypes_lookup (x : List Nat) (k : ValueType) : byteTypes.lookup x = some k ↔ x = tag k := by
  constructor
  · intro h
    obtain ⟨l1, l2, e, -⟩ := List.lookup_eq_some_iff.1 h
    have hm : (x, k) ∈ byteTypes := by rw [e]; simp
    have key : ∀ p ∈ byteTypes, p.1 = tag p.2 := by decide
    exact key _ hm
  · rintro rfl
    cases k <;> decide

theorem utf16Types_lookup (x : List Nat) (k : ValueType) (hk : k ≠ .notes) : utf16Types.lookup x = some k ↔ x = tag k := by
  constructor
  · intro h
    obtain ⟨l1, l2, e, -⟩ := List.lookup_eq_some_iff.1 h
    have hm : (x, k) ∈ utf16Types := by rw [e]; simp
    have key : ∀ p ∈ utf16Types, p.2 ≠ .notes → p.1 = tag p.2 := by decide
    exact key _ hm hk
  · rintro rfl
    cases k <;> first | decide | exact absurd rfl hk

theorem utf16Types_notes (x : List Nat) : utf16Types.lookup x = some .notes ↔ x = [0x77] := by
  constructor
  · intro h
    obtain ⟨l1, l2, e, -⟩ := List.lookup_eq_some_iff.1 h
    have hm : (x, ValueType.notes) ∈ utf16Types := by rw [e]; simp
    have key : ∀ p ∈ utf16Types, p.2 = .notes → p.1 = [0x77] := by decide
    exact key _ hm rfl
  · rintro rfl
    decide

theorem get_snoc (v : Values) (k k' : ValueType) (x : Value) : Values.get (v ++ [(k', x)]) k = (v.get k).or (if k' = k then some x else none) := by
  unfold Values.get
  rw [List.lookup_append]
  congr 1
  by_cases h : k' = k
  · subst h; simp [List.lookup]
  · rw [if_neg h, List.lookup]
    have : (k == k') = false := by simpa using Ne.symm h
    rw [this]; rfl

theorem addByte_get (t x : List Byte) (v : Values) (k : ValueType) :
    (addByte t x v).get k = (v.get k).or (if t.map BitVec.toNat = tag k then some (.byte x) else none) := by
  unfold addByte
  cases e : byteTypes.lookup (t.map BitVec.toNat) with
  | none =>
    have : t.map BitVec.toNat ≠ tag k := fun h => by
      rw [(byteTypes_lookup _ _).2 h] at e; cases e
    rw [if_neg this, Option.or_none]
  | some k' =>
    have hk := (byteTypes_lookup _ _).1 e
    simp only
    by_cases hs : (v.get k').isSome
    · rw [if_pos hs]
      split
      · next h =>
        have : k' = k := by
          have := (byteTypes_lookup _ k).2 h
          rw [e] at this; exact Option.some.inj this
        subst this
        obtain ⟨y, hy⟩ := Option.isSome_iff_exists.1 hs
        rw [hy, Option.some_or]
      · rw [Option.or_none]
    · rw [if_neg hs, get_snoc]
      congr 1
      by_cases h : k' = k
      · subst h; rw [if_pos rfl, if_pos hk]
      · rw [if_neg h, if_neg]
        intro h'
        have := (byteTypes_lookup _ k).2 h'
        rw [e] at this; exact h (Option.some.inj this)

theorem findSome_cons {α β : Type} (f : α → Option β) (a : α) (l : List α) : (a :: l).findSome? f = (f a).or (l.findSome? f) := by
  rw [List.findSome?_cons]
  cases f a <;> rfl

theorem addBytes_get (cols : List (List Byte × List Byte)) (v : Values) (k : ValueType) :
    (addBytes cols v).get k = (v.get k).or (cols.findSome? fun c => if c.1.map BitVec.toNat = tag k then some (.byte c.2) else none) := by
  induction cols generalizing v with
  | nil => simp [addBytes]
  | cons c cols ih =>
    obtain ⟨t, x⟩ := c
    rw [addBytes, ih, addByte_get, findSome_cons, Option.or_assoc]

theorem dateLoop_eq (l : List Nat) (n : Nat) {r : Option Nat} (h : dateLoop l n = .ok r) :
    r = if ∀ x ∈ l, 0x30 ≤ x ∧ x ≤ 0x39 then some (l.foldl (fun n x => 10 * n + (x - 0x30)) n) else none := by
  induction l generalizing n with
  | nil => simp only [dateLoop, R.ok.injEq] at h; subst h; simp
  | cons x l ih =>
    unfold dateLoop at h
    obtain ⟨_, -, h⟩ := R.bind_eq_ok.1 h
    split at h
    · next hx =>
      simp only [R.pure_eq, R.ok.injEq] at h
      subst h
      rw [if_neg]
      intro hc
      have := hc x (by simp)
      omega
    · next hx =>
      obtain ⟨_, -, h⟩ := R.bind_eq_ok.1 h
      rw [ih _ h, List.foldl_cons, Nat.mul_comm n 10]
      congr 1
      rw [eq_iff_iff]
      constructor
      · intro hc y hy
        rcases List.mem_cons.1 hy with rfl | hy
        · omega
        · exact hc y hy
      · exact fun hc y hy => hc y (List.mem_cons_of_mem _ hy)

/-- The value of a column of a header2. -/
theorem utf16Value_eq {k : ValueType} {x : List Nat} {r : Option Value} {h : Header} (hc : h.coding ≠ .bytes)
    (hd : k = .acquisitionDate ∨ k = .systemDate → x ≠ []) (hok : utf16Value k x = .ok r) : r = h.valueOf k x := by
  unfold utf16Value at hok
  unfold Header.valueOf
  rw [if_neg hc]
  by_cases e : k = .acquisitionDate ∨ k = .systemDate
  · rw [if_pos e] at hok ⊢
    obtain ⟨d, h1, h2⟩ := R.bind_eq_ok.1 hok
    simp only [R.pure_eq, R.ok.injEq] at h2
    rw [← h2, dateLoop_eq _ _ h1]
    unfold decimal
    congr 1
    have := hd e
    by_cases hx : ∀ y ∈ x, 0x30 ≤ y ∧ y ≤ 0x39
    · rw [if_pos hx, if_pos ⟨this, hx⟩]
    · rw [if_neg hx, if_neg fun h => hx h.2]
  · rw [if_neg e] at hok ⊢
    exact (R.ok.inj hok).symm

theorem addUtf16_get {h : Header} (hc : h.coding ≠ .bytes) {t x : List Nat} {v v' : Values} {k : ValueType}
    (hd : t = tag .acquisitionDate ∨ t = tag .systemDate → x ≠ []) (hn : k = .notes → t ≠ [0x74] ∧ t ≠ [0x77])
    (hok : addUtf16 t x v = .ok v') : v'.get k = (v.get k).or (if t = tag k then h.valueOf k x else none) := by
  unfold addUtf16 at hok
  have other : utf16Types.lookup t ≠ some k → t ≠ tag k := by
    intro hne ht
    by_cases hk : k = .notes
    · exact (hn hk).1 (by rw [ht, hk]; rfl)
    · exact hne ((utf16Types_lookup t k hk).2 ht)
  cases e : utf16Types.lookup t with
  | none =>
    rw [e] at hok other
    simp only [R.ok.injEq] at hok
    subst hok
    rw [if_neg (other (by simp)), Option.or_none]
  | some k' =>
    rw [e] at hok other
    simp only at hok
    by_cases hk : k' = k
    · subst hk
      have hkn : k' ≠ .notes := fun hk => by
        have := hn hk
        rw [hk, utf16Types_notes] at e
        exact this.2 e
      have ht := (utf16Types_lookup t k' hkn).1 e
      rw [if_pos ht]
      by_cases hs : (v.get k').isSome
      · rw [if_pos hs, R.ok.injEq] at hok
        subst hok
        obtain ⟨y, hy⟩ := Option.isSome_iff_exists.1 hs
        rw [hy, Option.some_or]
      · rw [if_neg hs] at hok
        obtain ⟨r, h1, h2⟩ := R.bind_eq_ok.1 hok
        simp only [R.pure_eq, R.ok.injEq] at h2
        have hr := utf16Value_eq (h := h) hc (fun hd' => hd (by rcases hd' with rfl | rfl <;> simp [ht])) h1
        subst h2
        rw [← hr]
        cases r with
        | none => simp [insertValue]
        | some y => rw [insertValue, get_snoc, if_pos rfl]
    · rw [if_neg (other fun h => hk (Option.some.inj h)), Option.or_none]
      by_cases hs : (v.get k').isSome
      · rw [if_pos hs, R.ok.injEq] at hok
        rw [hok]
      · rw [if_neg hs] at hok
        obtain ⟨r, h1, h2⟩ := R.bind_eq_ok.1 hok
        simp only [R.pure_eq, R.ok.injEq] at h2
        subst h2
        cases r with
        | none => rfl
        | some y => rw [insertValue, get_snoc, if_neg hk, Option.or_none]

theorem addUtf16s_get {h : Header} (hc : h.coding ≠ .bytes) {cols : List (List Nat × List Nat)} {v v' : Values} {k : ValueType}
    (hd : ∀ c ∈ cols, c.1 = tag .acquisitionDate ∨ c.1 = tag .systemDate → c.2 ≠ []) (hn : k = .notes → ∀ c ∈ cols, c.1 ≠ [0x74] ∧ c.1 ≠ [0x77])
    (hok : addUtf16s cols v = .ok v') : v'.get k = (v.get k).or (cols.findSome? fun c => if c.1 = tag k then h.valueOf k c.2 else none) := by
  induction cols generalizing v with
  | nil => simp only [addUtf16s, R.ok.injEq] at hok; subst hok; simp
  | cons c cols ih =>
    obtain ⟨t, x⟩ := c
    unfold addUtf16s at hok
    obtain ⟨v1, h1, h2⟩ := R.bind_eq_ok.1 hok
    rw [ih (fun c hc => hd c (by simp [hc])) (fun hk c hc => hn hk c (by simp [hc])) h2,
      addUtf16_get hc (hd (t, x) (by simp)) (fun hk => hn hk (t, x) (by simp)) h1, findSome_cons, Option.or_assoc]

/-! ## Texts -/

theorem cell_fst {s : Sheet} (hs : s.Wf) {x : Nat} (hx : x ∈ [0x09].intercalate (s.columns.map Prod.fst)) : x ≠ 0 ∧ x ≠ 0x0a ∧ x ≠ 0x0d := by
  rcases mem_intercalate hx with rfl | ⟨c, hc, hx⟩
  · decide
  · obtain ⟨d, hd, rfl⟩ := List.mem_map.1 hc
    have := hs.cells d hd x (by simp [hx])
    exact ⟨this.1, this.2.2.1, this.2.2.2⟩

theorem cell_snd {s : Sheet} (hs : s.Wf) {x : Nat} (hx : x ∈ [0x09].intercalate (s.columns.map Prod.snd)) : x ≠ 0 ∧ x ≠ 0x0a ∧ x ≠ 0x0d := by
  rcases mem_intercalate hx with rfl | ⟨c, hc, hx⟩
  · decide
  · obtain ⟨d, hd, rfl⟩ := List.mem_map.1 hc
    have := hs.cells d hd x (by simp [hx])
    exact ⟨this.1, this.2.2.1, this.2.2.2⟩

theorem zip_columns {α β : Type} (l : List (α × β)) : (l.map Prod.fst).zip (l.map Prod.snd) = l := by
  induction l with
  | nil => rfl
  | cons a l ih => simp [ih]

theorem ofNat_ne {x : Nat} (h : x < 256) {y : Nat} (hy : y < 256) (hne : x ≠ y) : BitVec.ofNat 8 x ≠ BitVec.ofNat 8 y := by
  intro e
  have := congrArg BitVec.toNat e
  simp only [BitVec.toNat_ofNat] at this
  omega

theorem map_toNat {l : List Nat} (h : ∀ x ∈ l, x < 256) : (l.map (BitVec.ofNat 8)).map BitVec.toNat = l := by
  rw [List.map_map]
  conv => rhs; rw [← List.map_id l]
  refine List.map_congr_left fun x hx => ?_
  have := h x hx
  simp only [Function.comp, BitVec.toNat_ofNat, id]
  omega

/-- The text of a header in bytes. -/
theorem readHeaderText_sheet {s : Sheet} (hs : s.Wf) (hu : ∀ x ∈ s.text, x < 256) (extra : List Byte) (v : Values) :
    ∃ v', readHeaderText (s.text.map (BitVec.ofNat 8) ++ extra) v = .ok v' ∧ ∀ k, v'.get k = (v.get k).or (Header.get ⟨.bytes, s⟩ k) := by
  have heol : s.eol.map (BitVec.ofNat 8) = [0x0a#8] ∨ s.eol.map (BitVec.ofNat 8) = [0x0d#8, 0x0a#8] := by
    rcases hs.eol with h | h <;> rw [h] <;> simp
  have hut : ∀ x ∈ [0x09].intercalate (s.columns.map Prod.fst), x < 256 := fun x hx => hu x (by unfold Sheet.text; simp [hx])
  have huv : ∀ x ∈ [0x09].intercalate (s.columns.map Prod.snd), x < 256 := fun x hx => hu x (by unfold Sheet.text; simp [hx])
  have hline : ∀ {l : List Nat} (_ : ∀ x ∈ l, x < 256) (_ : ∀ x ∈ l, x ≠ 0 ∧ x ≠ 0x0a ∧ x ≠ 0x0d) (rest : List Byte),
      byteLine (l.map (BitVec.ofNat 8) ++ s.eol.map (BitVec.ofNat 8) ++ rest) = (some (l.map (BitVec.ofNat 8)), rest) := by
    intro l h1 h2 rest
    refine byteLine_eol _ _ _ ?_ heol
    intro x hx
    obtain ⟨y, hy, rfl⟩ := List.mem_map.1 hx
    have := h1 y hy
    obtain ⟨a, b, c⟩ := h2 y hy
    exact ⟨ofNat_ne this (by decide) a, ofNat_ne this (by decide) b, ofNat_ne this (by decide) c⟩
  have hcat : ∀ x ∈ s.categories, x < 256 ∧ x ≠ 0 ∧ x ≠ 0x0a ∧ x ≠ 0x0d := by
    rcases hs.categories with h | h <;> rw [h] <;> simp
  have e : s.text.map (BitVec.ofNat 8) ++ extra =
      s.categories.map (BitVec.ofNat 8) ++ s.eol.map (BitVec.ofNat 8) ++ ([0x6d, 0x61, 0x69, 0x6e].map (BitVec.ofNat 8) ++ s.eol.map (BitVec.ofNat 8) ++
        (([0x09].intercalate (s.columns.map Prod.fst)).map (BitVec.ofNat 8) ++ s.eol.map (BitVec.ofNat 8) ++
          (([0x09].intercalate (s.columns.map Prod.snd)).map (BitVec.ofNat 8) ++ s.eol.map (BitVec.ofNat 8) ++ (s.rest.map (BitVec.ofNat 8) ++ extra)))) := by
    unfold Sheet.text
    simp only [List.map_append, List.append_assoc]
  have hsplit : ∀ cells : List (List Nat), cells ≠ [] → (∀ c ∈ cells, ∀ x ∈ c, x < 256 ∧ x ≠ 0x09) →
      split 9#8 (([0x09].intercalate cells).map (BitVec.ofNat 8)) = cells.map (List.map (BitVec.ofNat 8)) := by
    intro cells hne hc
    rw [map_intercalate]
    refine split_intercalate _ _ (by simpa using hne) ?_
    intro c hc' hx
    obtain ⟨d, hd, rfl⟩ := List.mem_map.1 hc'
    obtain ⟨y, hy, he⟩ := List.mem_map.1 hx
    obtain ⟨h1, h2⟩ := hc d hd y hy
    exact ofNat_ne h1 (by decide) h2 he
  have hfst : ∀ c ∈ s.columns, ∀ x ∈ c.1, x < 256 := fun c hc x hx => hut x (intercalate_mem (List.mem_map_of_mem hc) hx)
  have hsnd : ∀ c ∈ s.columns, ∀ x ∈ c.2, x < 256 := fun c hc x hx => huv x (intercalate_mem (List.mem_map_of_mem hc) hx)
  have h1 : split 9#8 (([0x09].intercalate (s.columns.map Prod.fst)).map (BitVec.ofNat 8)) = (s.columns.map Prod.fst).map (List.map (BitVec.ofNat 8)) := by
    refine hsplit _ (by simpa using hs.columns) fun c hc x hx => ?_
    obtain ⟨d, hd, rfl⟩ := List.mem_map.1 hc
    exact ⟨hfst d hd x hx, (hs.cells d hd x (by simp [hx])).2.1⟩
  have h2 : split 9#8 (([0x09].intercalate (s.columns.map Prod.snd)).map (BitVec.ofNat 8)) = (s.columns.map Prod.snd).map (List.map (BitVec.ofNat 8)) := by
    refine hsplit _ (by simpa using hs.columns) fun c hc x hx => ?_
    obtain ⟨d, hd, rfl⟩ := List.mem_map.1 hc
    exact ⟨hsnd d hd x hx, (hs.cells d hd x (by simp [hx])).2.1⟩
  have hzip : ((s.columns.map Prod.fst).map (List.map (BitVec.ofNat 8))).zip ((s.columns.map Prod.snd).map (List.map (BitVec.ofNat 8))) =
      s.columns.map fun c => (c.1.map (BitVec.ofNat 8), c.2.map (BitVec.ofNat 8)) := by
    rw [List.zip_map, zip_columns]
    rfl
  unfold readHeaderText
  rw [e, hline (fun x hx => (hcat x hx).1) (fun x hx => (hcat x hx).2)]
  simp only [needLine, R.ok_bind]
  rw [R.require_true (by rcases hs.categories with h | h <;> rw [h] <;> simp), R.ok_bind, hline (by decide) (by decide)]
  simp only [R.ok_bind]
  rw [R.require_true (by decide), R.ok_bind, hline hut fun x hx => cell_fst hs hx]
  simp only [R.ok_bind]
  rw [hline huv fun x hx => cell_snd hs hx]
  simp only [R.ok_bind]
  rw [h1, h2, R.require_true (by simp), R.ok_bind, hzip]
  refine ⟨_, rfl, fun k => ?_⟩
  rw [addBytes_get]
  congr 1
  unfold Header.get
  rw [List.findSome?_map]
  simp only
  have hg : ∀ cols : List (List Nat × List Nat), (∀ c ∈ cols, ∀ x ∈ c.1, x < 256) →
      cols.findSome? ((fun c : List Byte × List Byte => if c.1.map BitVec.toNat = tag k then some (Value.byte c.2) else none) ∘
        fun c => (c.1.map (BitVec.ofNat 8), c.2.map (BitVec.ofNat 8))) =
      cols.findSome? fun c => if c.1 = tag k then Header.valueOf ⟨.bytes, s⟩ k c.2 else none := by
    intro cols hc
    induction cols with
    | nil => rfl
    | cons c cols ih =>
      rw [findSome_cons, findSome_cons, ih fun c h => hc c (by simp [h])]
      congr 1
      simp only [Function.comp]
      rw [map_toNat (hc c (by simp))]
      rfl
  exact hg _ hfst

/-- The text of a header in UTF-16. -/
theorem readHeader2Text_eq (big : Bool) {s : Sheet} (hs : s.Wf) (hu : ∀ x ∈ s.text, x < 65536) (extra : List Byte) (v : Values) :
    readHeader2Text big (coded big s.text ++ extra) v = addUtf16s s.columns v := by
  have hut : ∀ x ∈ [0x09].intercalate (s.columns.map Prod.fst), x < 65536 := fun x hx => hu x (by unfold Sheet.text; simp [hx])
  have huv : ∀ x ∈ [0x09].intercalate (s.columns.map Prod.snd), x < 65536 := fun x hx => hu x (by unfold Sheet.text; simp [hx])
  have hcat : ∀ x ∈ s.categories, x < 65536 ∧ x ≠ 0 ∧ x ≠ 0x0a ∧ x ≠ 0x0d := by
    rcases hs.categories with h | h <;> rw [h] <;> simp
  have h1 : split 9 ([0x09].intercalate (s.columns.map Prod.fst)) = s.columns.map Prod.fst := by
    refine split_intercalate _ _ (by simpa using hs.columns) fun c hc hx => ?_
    obtain ⟨d, hd, rfl⟩ := List.mem_map.1 hc
    exact (hs.cells d hd 9 (by simp [hx])).2.1 rfl
  have h2 : split 9 ([0x09].intercalate (s.columns.map Prod.snd)) = s.columns.map Prod.snd := by
    refine split_intercalate _ _ (by simpa using hs.columns) fun c hc hx => ?_
    obtain ⟨d, hd, rfl⟩ := List.mem_map.1 hc
    exact (hs.cells d hd 9 (by simp [hx])).2.1 rfl
  unfold readHeader2Text
  unfold Sheet.text
  rw [utf16Line_eol big _ _ _ _ hcat hs.eol, R.ok_bind]
  simp only [needLine, R.ok_bind]
  rw [R.require_true hs.categories, R.ok_bind, utf16Line_eol big _ _ _ _ (by decide) hs.eol]
  simp only [R.ok_bind]
  rw [R.require_true trivial, R.ok_bind, utf16Line_eol big _ _ _ _ (fun x hx => ⟨hut x hx, cell_fst hs hx⟩) hs.eol]
  simp only [R.ok_bind]
  rw [utf16Line_eol big _ _ _ _ (fun x hx => ⟨huv x hx, cell_snd hs hx⟩) hs.eol]
  simp only [R.ok_bind]
  rw [h1, h2, R.require_true (by simp), R.ok_bind, zip_columns]

theorem readHeader2Text_sheet (big : Bool) {h : Header} (hc : h.coding ≠ .bytes) (hs : h.sheet.Wf) (hu : ∀ x ∈ h.sheet.text, x < 65536)
    (extra : List Byte) {v v' : Values} {k : ValueType} (hd : ∀ c ∈ h.sheet.columns, c.1 = tag .acquisitionDate ∨ c.1 = tag .systemDate → c.2 ≠ [])
    (hn : k = .notes → ∀ c ∈ h.sheet.columns, c.1 ≠ [0x74] ∧ c.1 ≠ [0x77])
    (hok : readHeader2Text big (coded big h.sheet.text ++ extra) v = .ok v') : v'.get k = (v.get k).or (h.get k) := by
  rw [readHeader2Text_eq big hs hu] at hok
  rw [addUtf16s_get hc hd hn hok]
  rfl

/-! ## Texts that are accepted -/

theorem foldl_le (l : List Nat) (n : Nat) : n ≤ l.foldl (fun n x => 10 * n + (x - 0x30)) n := by
  induction l generalizing n with
  | nil => exact Nat.le_refl _
  | cons x l ih => exact Nat.le_trans (by omega) (ih (10 * n + (x - 0x30)))

theorem dateLoop_ok (l : List Nat) (n : Nat) (hd : ∀ x ∈ l, 0x30 ≤ x ∧ x ≤ 0x39) (h : l.foldl (fun n x => 10 * n + (x - 0x30)) n < 2 ^ 31) :
    ∃ r, dateLoop l n = .ok r := by
  induction l generalizing n with
  | nil => exact ⟨_, rfl⟩
  | cons x l ih =>
    rw [List.foldl_cons] at h
    have h1 := Nat.lt_of_le_of_lt (foldl_le l (10 * n + (x - 0x30))) h
    have hx := hd x (by simp)
    unfold dateLoop
    rw [R.check_true (by omega), R.ok_bind, if_neg (by omega), R.check_true (by omega), R.ok_bind, Nat.mul_comm n 10]
    exact ih _ (fun y hy => hd y (by simp [hy])) h

theorem utf16Value_ok {k : ValueType} {x : List Nat} (h : k = .acquisitionDate ∨ k = .systemDate → ∃ n, decimal x = some n ∧ n < 2 ^ 31) :
    ∃ r, utf16Value k x = .ok r := by
  unfold utf16Value
  split
  · next hk =>
    obtain ⟨n, h1, h2⟩ := h hk
    unfold decimal at h1
    split at h1
    · next hx =>
      rw [Option.some.injEq] at h1
      obtain ⟨r, hr⟩ := dateLoop_ok x 0 hx.2 (by rw [h1]; exact h2)
      exact ⟨_, by rw [hr, R.ok_bind, R.pure_eq]⟩
    · cases h1
  · exact ⟨_, rfl⟩

theorem addUtf16s_ok (cols : List (List Nat × List Nat)) (v : Values)
    (hd : ∀ c ∈ cols, c.1 = tag .acquisitionDate ∨ c.1 = tag .systemDate → ∃ n, decimal c.2 = some n ∧ n < 2 ^ 31) :
    ∃ v', addUtf16s cols v = .ok v' := by
  induction cols generalizing v with
  | nil => exact ⟨_, rfl⟩
  | cons c cols ih =>
    obtain ⟨t, x⟩ := c
    unfold addUtf16s
    have : ∃ v1, addUtf16 t x v = .ok v1 := by
      unfold addUtf16
      cases e : utf16Types.lookup t with
      | none => exact ⟨_, rfl⟩
      | some k =>
        simp only
        by_cases hs : (v.get k).isSome
        · exact ⟨_, if_pos hs⟩
        · rw [if_neg hs]
          obtain ⟨r, hr⟩ := utf16Value_ok (k := k) (x := x) fun hk => hd (t, x) (by simp) (by
            rcases hk with rfl | rfl
            · exact Or.inl ((utf16Types_lookup t _ (by decide)).1 e)
            · exact Or.inr ((utf16Types_lookup t _ (by decide)).1 e))
          exact ⟨_, by rw [hr, R.ok_bind, R.pure_eq]⟩
    obtain ⟨v1, h1⟩ := this
    rw [h1, R.ok_bind]
    exact ih v1 fun c hc => hd c (by simp [hc])

end Keramics.EwfInfo
