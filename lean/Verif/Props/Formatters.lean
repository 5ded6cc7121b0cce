import Verif.Model.Formatters
import Verif.Spec.Formatters
import Verif.Props.InfoTool
import Verif.Props.VfsScanner

/-!
# C83: debug output
-/

namespace Keramics.Props
open Keramics.Formatters Spec.DebugText
open Spec (codePoints hexNumber decimalText)

/-- The columns of the bytes so far. -/
private def cols (l : List Byte) : List Nat :=
  (l.take 8).flatMap (fun b => hexNumber 2 b.toNat ++ codePoints " ") ++ (if 8 ≤ l.length then codePoints " " else []) ++
    (l.drop 8).flatMap fun b => hexNumber 2 b.toNat ++ codePoints " "

private theorem cols_snoc (l : List Byte) (b : Byte) (h : l.length < 16) :
    cols (l ++ [b]) = cols l ++ hexNumber 2 b.toNat ++ codePoints " " ++ if l.length = 7 then codePoints " " else [] := by
  unfold cols
  by_cases h7 : l.length < 7
  · rw [List.take_of_length_le (by simp; omega), List.take_of_length_le (by omega), List.drop_of_length_le (by simp; omega), List.drop_of_length_le (by omega),
      if_neg (by simp; omega), if_neg (by omega), if_neg (by omega)]
    simp
  · by_cases h8 : l.length = 7
    · rw [List.take_of_length_le (by simp; omega), List.take_of_length_le (by omega), List.drop_of_length_le (by simp; omega), List.drop_of_length_le (by omega),
        if_pos (by simp; omega), if_neg (by omega), if_pos h8]
      simp
    · rw [List.take_append_of_le_length (by omega), List.drop_append_of_le_length (by omega), if_pos (by simp; omega), if_pos (by omega), if_neg h8]
      simp

private theorem pad_small : ∀ r, r < 8 → padding r = (List.replicate (8 - r) (codePoints "   ")).flatten ++ codePoints " " ++ (List.replicate 8 (codePoints "   ")).flatten := by
  decide +kernel

private theorem pad_large : ∀ r, r < 16 → 8 ≤ r → padding r = (List.replicate (16 - r) (codePoints "   ")).flatten := by decide +kernel

private theorem row_eq (offset : Nat) (l : List Byte) (h : l.length < 16) :
    row offset l = hexNumber 8 offset ++ codePoints "  " ++ cols l ++ padding l.length ++ codePoints " " ++ l.map shownByte ++ codePoints "\n" := by
  unfold row cols
  simp only
  by_cases h8 : l.length < 8
  · rw [pad_small _ h8, List.take_of_length_le (by omega : l.length ≤ 8), List.drop_of_length_le (by omega : l.length ≤ 8), if_neg (by omega),
      List.take_append, List.drop_append, List.take_of_length_le (by simp; omega), List.drop_of_length_le (by simp; omega), List.length_map, List.take_replicate, List.drop_replicate,
      Nat.min_eq_left (by omega), show 16 - l.length - (8 - l.length) = 8 by omega]
    simp [List.flatMap_def]
  · rw [pad_large _ h (by omega), if_pos (by omega), List.take_append_of_le_length (by simp; omega), List.drop_append_of_le_length (by simp; omega)]
    simp [List.flatMap_def, List.map_take, List.map_drop]

private theorem row_whole (offset : Nat) (l : List Byte) (h : l.length = 16) :
    row offset l = hexNumber 8 offset ++ codePoints "  " ++ cols l ++ codePoints " " ++ l.map shownByte ++ codePoints "\n" := by
  unfold row cols
  simp only
  rw [h, if_pos (by omega)]
  simp [List.flatMap_def, List.map_take, List.map_drop]

private theorem character_eq (b : Byte) : character b = shownByte b := by
  unfold character shownByte
  split <;> split <;> omega

private theorem set_take {chars : List Nat} {l : List Nat} {x : Nat} (h : chars.take l.length = l) (hl : l.length < chars.length) :
    (chars.set l.length x).take (l.length + 1) = l ++ [x] := by
  have := congrArg List.length h
  rw [List.take_succ_eq_append_getElem (by simpa using hl)]
  simp only [List.getElem_set_self]
  rw [List.take_set_of_le (Nat.le_refl _), h]

private theorem tail_take' (l : List Byte) (n : Nat) : (l.take (n + 1)).tail = l.tail.take n := by cases l <;> simp

/-- A byte that is not the last of a line. -/
private theorem byte_next {data l : List Byte} {b : Byte} {s : Dump} (hb : data[s.offset]? = some b) (hc : s.chars.length = 16) (hi : s.index = l.length) (hl : l.length < 15)
    (ht : s.chars.take l.length = l.map shownByte) {pre : List Nat} (ho : s.out = pre ++ cols l) :
    ∃ t, wholeByte data s = .ok t ∧ t.offset = s.offset + 1 ∧ t.shown = s.shown ∧ t.chars.length = 16 ∧ t.index = (l ++ [b]).length ∧
      t.chars.take (l ++ [b]).length = (l ++ [b]).map shownByte ∧ t.out = pre ++ cols (l ++ [b]) := by
  have h1 : R.get data s.offset = .ok b := by unfold R.get; rw [hb]
  unfold wholeByte
  rw [h1, R.ok_bind, R.set_ok (by omega), R.ok_bind]
  simp only
  rw [if_neg (by omega)]
  refine ⟨_, rfl, rfl, rfl, by simpa using hc, by simp [hi], ?_, ?_⟩
  · have := set_take (chars := s.chars) (l := l.map shownByte) (x := character b) (by simpa using ht) (by simp; omega)
    simp only [List.length_map] at this
    rw [hi, List.length_append, List.length_singleton, this, List.map_append, character_eq]; rfl
  · simp only
    rw [cols_snoc l b (by omega), hex_number, ho, hi]
    simp only [List.append_assoc]

/-- The last byte of a line. -/
private theorem byte_last {data l : List Byte} {b : Byte} {s : Dump} (hb : data[s.offset]? = some b) (hc : s.chars.length = 16) (hi : s.index = l.length) (hl : l.length = 15)
    (ht : s.chars.take l.length = l.map shownByte) {pre : List Nat} (ho : s.out = pre ++ cols l) :
    ∃ t, wholeByte data s = .ok t ∧ t.offset = s.offset + 1 ∧ t.shown = s.shown ∧ t.chars.length = 16 ∧ t.index = 0 ∧
      t.out = pre ++ cols (l ++ [b]) ++ codePoints " " ++ (l ++ [b]).map shownByte ++ codePoints "\n" := by
  have h1 : R.get data s.offset = .ok b := by unfold R.get; rw [hb]
  unfold wholeByte
  rw [h1, R.ok_bind, R.set_ok (by omega), R.ok_bind]
  simp only
  rw [if_pos (by omega)]
  refine ⟨_, rfl, rfl, rfl, by simpa using hc, rfl, ?_⟩
  have := set_take (chars := s.chars) (l := l.map shownByte) (x := character b) (by simpa using ht) (by simp; omega)
  simp only [List.length_map] at this
  simp only
  rw [hi, this, cols_snoc l b (by omega), hex_number, ho, List.map_append, character_eq]
  simp only [List.append_assoc]
  rfl

/-- The rest of a line. -/
private theorem row_rest {data : List Byte} {group : Bool} {whole : Nat} {pre : List Nat} : ∀ (r l : List Byte) (s : Dump) (fuel : Nat), l ≠ [] → (l ++ r).length = 16 → r ≠ [] →
    (data.drop s.offset).take r.length = r → s.offset + r.length ≤ whole → s.chars.length = 16 → s.index = l.length → s.chars.take l.length = l.map shownByte →
    s.out = pre ++ cols l →
    ∃ t, wholeLoop data group whole (fuel + r.length) s = wholeLoop data group whole fuel t ∧ t.offset = s.offset + r.length ∧ t.shown = s.shown ∧ t.chars.length = 16 ∧
      t.index = 0 ∧ t.out = pre ++ cols (l ++ r) ++ codePoints " " ++ (l ++ r).map shownByte ++ codePoints "\n"
  | [], _, _, _, _, _, h, _, _, _, _, _, _ => absurd rfl h
  | b :: r, l, s, fuel, hl, hlen, _, hd, hw, hc, hi, ht, ho => by
    have hb : data[s.offset]? = some b := by
      have := congrArg List.head? hd
      rw [List.length_cons, List.head?_take, if_neg (by omega), List.head?_drop] at this
      exact this
    have hd' : (data.drop (s.offset + 1)).take r.length = r := by
      have h := congrArg List.tail hd
      rwa [List.length_cons, List.tail_cons, tail_take', List.tail_drop] at h
    have hl0 : l.length ≠ 0 := fun h => hl (List.length_eq_zero_iff.1 h)
    simp only [List.length_append, List.length_cons] at hlen hw
    have hstep : ∀ t, wholeByte data s = .ok t → wholeLoop data group whole (fuel + (b :: r).length) s = wholeLoop data group whole (fuel + r.length) t := by
      intro t h
      show wholeLoop data group whole (fuel + r.length + 1) s = _
      rw [wholeLoop, if_pos (by omega)]
      unfold wholeStep
      rw [if_neg (by omega), h, R.ok_bind]
    cases r with
    | nil =>
      obtain ⟨t, h1, h2, h3, h4, h5, h6⟩ := byte_last hb hc hi (by simp at hlen; omega) ht ho
      exact ⟨t, hstep t h1, h2, h3, h4, h5, h6⟩
    | cons c r =>
      obtain ⟨t, h1, h2, h3, h4, h5, h6, h7⟩ := byte_next hb hc hi (by simp at hlen; omega) ht ho
      obtain ⟨u, u1, u2, u3, u4, u5, u6⟩ := row_rest (group := group) (whole := whole) (pre := pre) (c :: r) (l ++ [b]) t fuel (by simp) (by simp at hlen ⊢; omega) (by simp) (by rw [h2]; exact hd') (by rw [h2, Nat.add_assoc]; simp only [List.length_cons] at hw ⊢; omega)
        h4 h5 h6 h7
      refine ⟨u, (hstep t h1).trans u1, by rw [u2, h2]; simp; omega, by rw [u3, h3], u4, u5, ?_⟩
      rw [u6]
      simp

private theorem line_length {data : List Byte} {i : Nat} (h : i < data.length / 16) : (lineOf data i).length = 16 := by
  unfold lineOf
  rw [List.length_take, List.length_drop]
  omega

/-- What holds before a line of 16 bytes. -/
private structure Inv (data : List Byte) (group : Bool) (i : Nat) (s : Dump) : Prop where
  offset : s.offset = 16 * i
  index : s.index = 0
  chars : s.chars.length = 16
  out : s.out = (List.range i).flatMap (wholeLine data group)
  shown : (i = 0 ∧ s.shown = 0) ∨ (0 < i ∧ ∃ k < i, s.shown = 16 * k ∧ lineOf data k = lineOf data (i - 1) ∧ (k = i - 1 ↔ ¬ LeftOut data group (i - 1)))

private theorem repeats_eq {data : List Byte} {group : Bool} {i : Nat} {s : Dump} (h : Inv data group i s) (hi : i < data.length / 16) :
    repeats data group (data.length / 16 * 16) s = .ok (decide (LeftOut data group i)) := by
  unfold repeats
  have ho := h.offset
  rcases h.shown with ⟨rfl, h0⟩ | ⟨hpos, k, hk, h0, hl, -⟩
  · rw [if_neg (by omega)]
    congr 1
    exact (decide_eq_false fun hx => by have := hx.2.1; omega).symm
  · by_cases hg : group = true
    · rw [if_pos ⟨hg, by omega⟩, h0, ho, R.slice_ok (by omega) (by omega), R.ok_bind, R.slice_ok (by omega) (by omega), R.ok_bind]
      have e1 : (data.drop (16 * k)).take (16 * k + 16 - 16 * k) = lineOf data k := by rw [Nat.add_sub_cancel_left]; rfl
      have e2 : (data.drop (16 * i)).take (16 * i + 16 - 16 * i) = lineOf data i := by rw [Nat.add_sub_cancel_left]; rfl
      rw [e1, e2, hl]
      simp only [R.pure_eq]
      congr 1
      rw [← Bool.decide_and]
      refine decide_eq_decide.2 ⟨fun hx => ⟨hg, hpos, by omega, hx.1.symm⟩, fun hx => ⟨hx.2.2.2.symm, ?_⟩⟩
      have := hx.2.2.1
      omega
    · rw [if_neg fun hx => hg hx.1]
      congr 1
      exact (decide_eq_false fun hx => hg hx.1).symm

private theorem line_step {data : List Byte} {group : Bool} {i : Nat} {s : Dump} (h : Inv data group i s) (hi : i < data.length / 16) (fuel : Nat) :
    ∃ t, wholeLoop data group (data.length / 16 * 16) (fuel + if LeftOut data group i then 1 else 16) s = wholeLoop data group (data.length / 16 * 16) fuel t ∧ Inv data group (i + 1) t := by
  have hrep := repeats_eq h hi
  have hlen := line_length hi
  have ho := h.offset
  have hout : (List.range (i + 1)).flatMap (wholeLine data group) = s.out ++ wholeLine data group i := by
    rw [List.range_succ, List.flatMap_append, h.out]; simp
  by_cases hleft : LeftOut data group i
  · refine ⟨{ s with offset := s.offset + 16, out := s.out ++ (if s.shown + 16 = s.offset then codePoints "...\n" else []) }, ?_,
      ⟨by show s.offset + 16 = _; omega, h.index, h.chars, ?_, .inr ⟨by omega, ?_⟩⟩⟩
    · rw [if_pos hleft, wholeLoop, if_pos (by omega)]
      unfold wholeStep
      rw [if_pos h.index, hrep, R.ok_bind, decide_eq_true hleft]
      rfl
    · rw [hout]
      show _ ++ _ = _
      unfold wholeLine
      rw [if_pos hleft]
      have := hleft.2.1
      rcases h.shown with ⟨h0, -⟩ | ⟨-, k, hk, h0, -, hiff⟩
      · omega
      · by_cases hp : LeftOut data group (i - 1)
        · have hne : k ≠ i - 1 := fun he => (hiff.1 he) hp
          rw [if_neg (by omega), if_pos hp]
        · have he := hiff.2 hp
          rw [if_pos (by omega), if_neg hp]
    · rcases h.shown with ⟨h0, -⟩ | ⟨-, k, hk, h0, hl, hiff⟩
      · have := hleft.2.1; omega
      · refine ⟨k, by omega, h0, ?_, ?_⟩
        · rw [Nat.add_sub_cancel, hleft.2.2.2]; exact hl
        · rw [Nat.add_sub_cancel]
          exact ⟨fun he => by omega, fun hx => absurd hleft hx⟩
  · obtain ⟨b, l, hbl⟩ : ∃ b l, lineOf data i = b :: l := by
      cases hx : lineOf data i with
      | nil => rw [hx] at hlen; simp at hlen
      | cons b l => exact ⟨b, l, rfl⟩
    have hl15 : l.length = 15 := by rw [hbl] at hlen; simpa using hlen
    have hdrop : (data.drop (16 * i)).take 16 = b :: l := hbl
    have hb : data[16 * i]? = some b := by
      have := congrArg List.head? hdrop
      rw [List.head?_take, if_neg (by omega), List.head?_drop] at this
      exact this
    have hd' : (data.drop (16 * i + 1)).take 15 = l := by
      have h := congrArg List.tail hdrop
      rwa [List.tail_cons, tail_take', List.tail_drop] at h
    have hsh : ∃ pre, pre = s.out ++ hexNumber 8 (16 * i) ++ codePoints "  " := ⟨_, rfl⟩
    obtain ⟨pre, hpre⟩ := hsh
    obtain ⟨t, h1, h2, h3, h4, h5, h6, h7⟩ := byte_next (data := data) (l := []) (b := b)
      (s := { s with shown := s.offset, out := s.out ++ Display.hex 8 s.offset ++ codePoints "  " }) (pre := pre)
      (by show data[s.offset]? = _; rw [ho]; exact hb) h.chars h.index (by simp) rfl
      (by show s.out ++ Display.hex 8 s.offset ++ codePoints "  " = _; rw [hex_number, ho, hpre]; simp [cols])
    have h2' : t.offset = 16 * i + 1 := by rw [h2]; exact congrArg (· + 1) ho
    have h3' : t.shown = 16 * i := by rw [h3]; exact ho
    obtain ⟨u, u1, u2, u3, u4, u5, u6⟩ := row_rest (data := data) (group := group) (whole := data.length / 16 * 16) (pre := pre) l [b] t fuel (by simp) (by simp; omega)
      (by intro e; rw [e] at hl15; simp at hl15) (by rw [h2', hl15]; exact hd') (by rw [h2']; omega) h4 (by simpa using h5) (by simpa using h6) (by simpa using h7)
    refine ⟨u, ?_, ⟨by rw [u2, h2']; omega, u5, u4, ?_, .inr ⟨by omega, i, by omega, by rw [u3]; exact h3', by simp, by simp [hleft]⟩⟩⟩
    · rw [if_neg hleft, show fuel + 16 = fuel + l.length + 1 by omega, wholeLoop, if_pos (by omega)]
      unfold wholeStep
      rw [if_pos h.index, hrep, R.ok_bind, decide_eq_false hleft]
      simp only [Bool.false_eq_true, if_false]
      rw [h1, R.ok_bind]
      exact u1
    · rw [hout, u6]
      unfold wholeLine
      rw [if_neg hleft, row_whole _ _ hlen, hbl, hpre]
      simp [List.append_assoc]

private theorem whole_ok {data : List Byte} {group : Bool} : ∀ (m i : Nat) (s : Dump) (fuel : Nat), i + m = data.length / 16 → Inv data group i s → 16 * m + 1 ≤ fuel →
    ∃ t, wholeLoop data group (data.length / 16 * 16) fuel s = .ok t ∧ Inv data group (data.length / 16) t
  | 0, i, s, fuel, hm, hinv, hf => by
    obtain ⟨fuel, rfl⟩ : ∃ g, fuel = g + 1 := ⟨fuel - 1, by omega⟩
    have hi : i = data.length / 16 := by omega
    subst hi
    refine ⟨s, ?_, hinv⟩
    have := hinv.offset
    rw [wholeLoop, if_neg (by omega)]
  | m + 1, i, s, fuel, hm, hinv, hf => by
    have hn : (if LeftOut data group i then 1 else 16) ≤ 16 := by split <;> omega
    obtain ⟨t, h1, h2⟩ := line_step hinv (by omega) (fuel - if LeftOut data group i then 1 else 16)
    rw [Nat.sub_add_cancel (by omega)] at h1
    obtain ⟨u, u1, u2⟩ := whole_ok m (i + 1) t _ (by omega) h2 (by omega : 16 * m + 1 ≤ fuel - if LeftOut data group i then 1 else 16)
    exact ⟨u, h1.trans u1, u2⟩

/-- The last line, if it has less than 16 bytes. -/
private theorem rest_loop {data : List Byte} {pre : List Nat} {n : Nat} : ∀ (r l : List Byte) (s : Dump) (fuel : Nat), data.drop (16 * n) = l ++ r → (l ++ r).length < 16 →
    s.offset = 16 * n + l.length → s.chars.length = 16 → s.index = l.length - 1 → s.chars.take l.length = l.map shownByte →
    s.out = pre ++ (if l = [] then [] else hexNumber 8 (16 * n) ++ codePoints "  ") ++ cols l → r.length < fuel →
    ∃ t, restLoop data fuel s = .ok t ∧ t.index = (l ++ r).length - 1 ∧ t.chars.take (l ++ r).length = (l ++ r).map shownByte ∧
      t.out = pre ++ (if l ++ r = [] then [] else hexNumber 8 (16 * n) ++ codePoints "  ") ++ cols (l ++ r)
  | r, l, s, 0, _, _, _, _, _, _, _, hf => absurd hf (by omega)
  | [], l, s, fuel + 1, hd, hlen, ho, hc, hi, ht, hout, _ => by
    have hlen' := congrArg List.length hd
    rw [List.length_drop] at hlen'
    simp only [List.append_nil] at hlen' ⊢
    refine ⟨s, ?_, hi, ht, hout⟩
    rw [restLoop]
    by_cases h0 : l.length = 0
    · by_cases hx : data.length ≤ 16 * n
      · rw [if_neg (by omega)]
      · omega
    · rw [if_neg (by omega)]
  | b :: r, l, s, fuel + 1, hd, hlen, ho, hc, hi, ht, hout, hf => by
    have hlen' := congrArg List.length hd
    rw [List.length_drop] at hlen'
    simp only [List.length_append, List.length_cons] at hlen hlen'
    have hb : data[s.offset]? = some b := by
      rw [ho, ← List.getElem?_drop, hd, List.getElem?_append_right (Nat.le_refl _)]
      simp
    have hmod : s.offset % 16 = l.length := by rw [ho]; omega
    have h1 : R.get data s.offset = .ok b := by unfold R.get; rw [hb]
    have hset := set_take (chars := s.chars) (l := l.map shownByte) (x := character b) (by simpa using ht) (by simp; omega)
    simp only [List.length_map] at hset
    have hstep : restStep data s = .ok ⟨s.chars.set l.length (character b), l.length, s.offset + 1, s.shown,
        pre ++ (hexNumber 8 (16 * n) ++ codePoints "  ") ++ cols (l ++ [b])⟩ := by
      unfold restStep
      rw [h1, R.ok_bind, hmod, R.set_ok (by omega), R.ok_bind, R.pure_eq, hout, cols_snoc l b (by omega), hex_number, hex_number]
      congr 2
      by_cases hl : l = []
      · subst hl
        simp only [List.length_nil, Nat.add_zero] at ho
        simp [ho, cols]
      · have hl0 : l.length ≠ 0 := fun h => hl (List.length_eq_zero_iff.1 h)
        rw [if_neg hl, if_neg hl0]
        simp [List.append_assoc]
    obtain ⟨t, t1, t2, t3, t4⟩ := rest_loop (data := data) (pre := pre) (n := n) r (l ++ [b])
      ⟨s.chars.set l.length (character b), l.length, s.offset + 1, s.shown, pre ++ (hexNumber 8 (16 * n) ++ codePoints "  ") ++ cols (l ++ [b])⟩ fuel
      (by rw [hd]; simp) (by simp; omega) (by simp [ho]; omega) (by simpa using hc) (by simp)
      (by rw [List.length_append, List.length_singleton, List.map_append, List.map_singleton, ← character_eq]; exact hset)
      (by rw [if_neg (by simp)]) (by simp at hf; omega)
    simp only [List.append_assoc, List.singleton_append] at t2 t3 t4
    refine ⟨t, ?_, t2, t3, by simpa [List.append_assoc] using t4⟩
    rw [restLoop, if_pos (by omega), hstep, R.ok_bind]
    exact t1

private theorem loops {data : List Byte} {group : Bool} : ∃ s t, wholeLoop data group (data.length / 16 * 16) (data.length + 1) start = .ok s ∧
    restLoop data (data.length + 1) s = .ok t ∧ t.index = data.length % 16 - 1 ∧
    t.chars.take (data.length % 16) = (data.drop (data.length / 16 * 16)).map shownByte ∧
    t.out = wholeLines data group ++ (if data.length % 16 = 0 then [] else hexNumber 8 (data.length / 16 * 16) ++ codePoints "  ") ++ cols (data.drop (data.length / 16 * 16)) := by
  obtain ⟨s, h1, h2⟩ := whole_ok (data := data) (group := group) (data.length / 16) 0 start (data.length + 1) (by omega)
    ⟨rfl, rfl, rfl, rfl, .inl ⟨rfl, rfl⟩⟩ (by omega)
  have hr : (data.drop (16 * (data.length / 16))).length = data.length % 16 := by rw [List.length_drop]; omega
  obtain ⟨t, t1, t2, t3, t4⟩ := rest_loop (data := data) (pre := wholeLines data group) (n := data.length / 16) (data.drop (16 * (data.length / 16))) [] s (data.length + 1)
    rfl (by rw [List.nil_append, hr]; omega) (by rw [h2.offset]; rfl) h2.chars (by rw [h2.index]; rfl) rfl
    (by rw [h2.out]; simp [wholeLines, cols]) (by rw [hr]; omega)
  rw [List.nil_append] at t2 t3 t4
  rw [hr] at t2 t3
  rw [Nat.mul_comm] at t3 t4
  refine ⟨s, t, h1, t1, t2, t3, ?_⟩
  rw [t4]
  have : data.drop (data.length / 16 * 16) = [] ↔ data.length % 16 = 0 := by
    rw [Nat.mul_comm, ← List.length_eq_zero_iff, hr]
  simp only [this]

/-- C83, what holds of hexdumps: every line has its offset, its bytes in hexadecimal and as characters; if lines are grouped, those that are the same as
the one before are left out. Missing: data with a last line of one byte. -/
theorem C83_hexdump_partial (data : List Byte) (group : Bool) (h : data.length % 16 ≠ 1) : hexdump data group = .ok (dump data group) := by
  obtain ⟨s, t, h1, h2, h3, h4, h5⟩ := loops (data := data) (group := group)
  unfold hexdump
  rw [h1, R.ok_bind, h2, R.ok_bind, R.pure_eq]
  congr 1
  unfold finish dump
  have hr : (data.drop (data.length / 16 * 16)).length = data.length % 16 := by rw [List.length_drop]; omega
  by_cases h0 : data.length % 16 = 0
  · have : data.drop (data.length / 16 * 16) = [] := List.length_eq_zero_iff.1 (by rw [hr, h0])
    rw [if_neg (by rw [h3]; omega), if_pos h0, h5, if_pos h0, this]
    simp [cols]
  · rw [if_pos ⟨by omega, by omega⟩, if_neg h0, h5, if_neg h0, h3, show data.length % 16 - 1 + 1 = data.length % 16 by omega, h4, row_eq _ _ (by rw [hr]; omega), hr]
    simp [List.append_assoc]

/-- C83 is violated by data with a last line of one byte: that line has no character and no end of its own. -/
theorem C83_violated_one (data : List Byte) (b : Byte) (group : Bool) (h : data.length % 16 = 0) :
    hexdump (data ++ [b]) group = .ok (wholeLines (data ++ [b]) group ++ hexNumber 8 data.length ++ codePoints "  " ++ hexNumber 2 b.toNat ++ codePoints " \n") ∧
    hexdump (data ++ [b]) group ≠ .ok (dump (data ++ [b]) group) := by
  have hl : (data ++ [b]).length % 16 = 1 := by simp; omega
  have hd : (data ++ [b]).length / 16 * 16 = data.length := by simp; omega
  obtain ⟨s, t, h1, h2, h3, h4, h5⟩ := loops (data := data ++ [b]) (group := group)
  have he : hexdump (data ++ [b]) group = .ok (wholeLines (data ++ [b]) group ++ hexNumber 8 data.length ++ codePoints "  " ++ hexNumber 2 b.toNat ++ codePoints " \n") := by
    unfold hexdump
    rw [h1, R.ok_bind, h2, R.ok_bind, R.pure_eq]
    congr 1
    unfold finish
    rw [if_neg (by rw [h3, hl]; omega), h5, if_neg (by omega), hd, List.drop_left' rfl]
    simp [cols, codePoints]
  refine ⟨he, fun hx => ?_⟩
  rw [he] at hx
  injection hx with hx
  have := congrArg List.length hx
  unfold dump at this
  rw [if_neg (by omega), hd, List.drop_left' rfl] at this
  simp only [row, List.length_append, List.length_cons, List.length_map, List.length_nil, codePoints] at this
  simp at this
  omega

/-- A line of 16 bytes twice, and three bytes. -/
example : (List.replicate 32 0x41#8 ++ [0#8, 1#8, 2#8]).length % 16 ≠ 1 ∧ dump (List.replicate 32 0x41#8 ++ [0#8, 1#8, 0x7e#8]) true =
    codePoints "00000000  41 41 41 41 41 41 41 41  41 41 41 41 41 41 41 41  AAAAAAAAAAAAAAAA\n00000010  41 41 41 41 41 41 41 41  41 41 41 41 41 41 41 41  AAAAAAAAAAAAAAAA\n00000020  00 01 7e                                          ..~\n\n" :=
  ⟨by simp, by decide +kernel⟩

/-- Four lines of 16 bytes that are the same: the two in the middle are left out. -/
example : dump (List.replicate 64 0x41#8) true =
    codePoints "00000000  41 41 41 41 41 41 41 41  41 41 41 41 41 41 41 41  AAAAAAAAAAAAAAAA\n...\n00000030  41 41 41 41 41 41 41 41  41 41 41 41 41 41 41 41  AAAAAAAAAAAAAAAA\n\n" := by
  decide +kernel

private theorem all_same {values : List (List Nat)} {v : List Nat} : (values.all fun x => decide (v = x)) = true ↔ values = List.replicate values.length v := by
  rw [List.all_eq_true, List.eq_replicate_iff]
  simp only [decide_eq_true_eq, true_and]
  exact ⟨fun h x hx => (h x hx).symm, fun h x hx => (h x hx).symm⟩

private theorem slices {values : List (List Nat)} : ∀ (k : List Nat), (∀ i ∈ k, 16 * i + 16 ≤ values.length) →
    (k.mapM fun i => R.slice values (16 * i) (16 * i + 16)) = .ok (k.map fun i => (values.drop (16 * i)).take 16)
  | [], _ => rfl
  | i :: k, h => by
    rw [List.mapM_cons, R.slice_ok (by omega) (h i List.mem_cons_self), R.ok_bind, slices k fun j hj => h j (List.mem_cons_of_mem _ hj), R.ok_bind,
      show 16 * i + 16 - 16 * i = 16 by omega]
    rfl

private theorem many {values : List (List Nat)} {v : List Nat} {rest : List (List Nat)} (hv : values = v :: rest) (hs : values ≠ List.replicate values.length v) (hl : 16 < values.length) :
    debugArray values = .ok (onLines (((List.range ((values.length - 16 + 15) / 16)).map fun i => (values.drop (16 * i)).take 16) ++ [values.drop (values.length - 16)])) := by
  unfold debugArray
  rw [R.get_ok (by omega), R.ok_bind]
  have h0 : values[0] = v := by simp [hv]
  rw [h0, if_neg fun h => hs (all_same.1 h), if_pos hl]
  simp only
  rw [slices _ fun i hi => by have := List.mem_range.1 hi; omega]
  rfl

/-- C83, what holds of lists of values. Missing: no values, and more than 16 that are not a multiple of 16. -/
theorem C83_list_partial (values : List (List Nat)) (h0 : values ≠ [])
    (h : values.length ≤ 16 ∨ 16 ∣ values.length ∨ ∃ v, values = List.replicate values.length v) : debugArray values = .ok (listText values) := by
  obtain ⟨v, rest, hv⟩ : ∃ v rest, values = v :: rest := by
    cases values with
    | nil => exact absurd rfl h0
    | cons v rest => exact ⟨v, rest, rfl⟩
  have hpos : 0 < values.length := by rw [hv]; simp
  have hg : values[0] = v := by simp [hv]
  have htext : listText values = if values = List.replicate values.length v then codePoints "[" ++ v ++ codePoints "; " ++ decimalText values.length ++ codePoints "]"
      else if values.length ≤ 16 then codePoints "[" ++ (codePoints ", ").intercalate values ++ codePoints "]"
      else onLines ((List.range ((values.length + 15) / 16)).map fun i => (values.drop (16 * i)).take 16) := by
    rw [hv]; rfl
  by_cases hs : values = List.replicate values.length v
  · rw [htext, if_pos hs]
    unfold debugArray
    rw [R.get_ok hpos, R.ok_bind, hg, if_pos (all_same.2 hs), VfsScanner.decimal_eq]
    rfl
  · by_cases hl : values.length ≤ 16
    · rw [htext, if_neg hs, if_pos hl]
      unfold debugArray
      rw [R.get_ok hpos, R.ok_bind, hg, if_neg fun h => hs (all_same.1 h), if_neg (by omega)]
      rfl
    · rw [htext, if_neg hs, if_neg hl, many hv hs (by omega)]
      have hd : 16 ∣ values.length := by
        rcases h with h | h | ⟨w, h⟩
        · exact absurd h hl
        · exact h
        · have : w = v := by
            have h1 : values[0]? = some v := by rw [hv]; rfl
            rw [h, List.getElem?_replicate, if_pos hpos] at h1
            injection h1
          exact absurd (this ▸ h) hs
      obtain ⟨q, hq⟩ := hd
      have hq1 : (values.length + 15) / 16 = q - 1 + 1 := by omega
      have hq2 : (values.length - 16 + 15) / 16 = q - 1 := by omega
      rw [hq1, hq2, List.range_succ, List.map_append, List.map_singleton, List.take_of_length_le (by rw [List.length_drop]; omega),
        show 16 * (q - 1) = values.length - 16 by omega]

/-- C83 is violated by more than 16 values that are not a multiple of 16: some are given twice. -/
theorem C83_violated_twice (values : List (List Nat)) (hs : ∀ v, values ≠ List.replicate values.length v) (hl : 16 < values.length) (hd : ¬ 16 ∣ values.length) :
    ∃ rows, debugArray values = .ok (onLines rows) ∧ values.length < rows.flatten.length := by
  obtain ⟨v, rest, hv⟩ : ∃ v rest, values = v :: rest := by
    cases values with
    | nil => simp at hl
    | cons v rest => exact ⟨v, rest, rfl⟩
  refine ⟨_, many hv (hs v) hl, ?_⟩
  have hrows : ∀ k, 16 * k ≤ values.length → (((List.range k).map fun i => (values.drop (16 * i)).take 16).flatten).length = 16 * k := by
    intro k
    induction k with
    | zero => intro _; rfl
    | succ k ih =>
      intro hk
      rw [List.range_succ, List.map_append, List.flatten_append, List.length_append, ih (by omega)]
      simp
      omega
  rw [List.flatten_append, List.length_append, hrows _ (by omega)]
  simp
  omega

/-- C83 is violated by a list without values: a panic. -/
theorem C83_violated_empty : debugArray [] = .panic := rfl

/-- 17 values, of which 15 are given twice. -/
example : (∀ v, ((List.range 17).map fun i => [i]) ≠ List.replicate 17 v) ∧ debugArray ((List.range 17).map fun i => [0x41 + i]) =
    .ok (codePoints "[\n        A, B, C, D, E, F, G, H, I, J, K, L, M, N, O, P,\n        B, C, D, E, F, G, H, I, J, K, L, M, N, O, P, Q\n    ]") := by
  refine ⟨fun v hv => ?_, by decide +kernel⟩
  have h0 := congrArg (·[0]?) hv
  have h1 := congrArg (·[1]?) hv
  simp at h0 h1
  rw [← h0] at h1
  simp at h1

example : listText ((List.range 5).map fun i => [0x41 + i]) = codePoints "[A, B, C, D, E]" ∧ listText (List.replicate 20 [0x30]) = codePoints "[0; 20]" := by decide +kernel

end Keramics.Props
