import Verif.Lemmas.FatDirectory

/-!
Property theorems: names in FAT directories (C32).
-/

namespace Keramics.Props
open Keramics Keramics.Spec Keramics.Spec.FatDir
open Keramics.FatDir (State Entry readData readShort lookupName find)

namespace FatDirLemmas
open Keramics.FatDir

theorem trim_head {field : List Byte} (h : field ≠ []) : (trim field).head? = field.head? := by
  unfold trim
  split
  · rename_i i hi
    have hlt : i < field.reverse.length := by
      rw [List.findIdx?_eq_some_iff_getElem] at hi
      exact hi.1
    rw [List.length_reverse] at hlt
    rw [List.head?_take, if_neg (by omega)]
  · rfl

theorem dot_free (c : Bool) (b : Byte) (h : b ≠ 0x2e#8) :
    (if c ∧ 0x41 ≤ b.toNat ∧ b.toNat ≤ 0x5a then b + 32#8 else b) ≠ 0x2e#8 := by
  revert h b c; decide +kernel

/-- The entry of a file is taken for one. -/
theorem file_entry {e : List Byte} (h : IsFile e) (rest : List Byte) :
    entryType (e ++ rest) = .ok .shortName ∧ ∃ s, readShort e = .ok s ∧ s.attributes &&& 0x58#8 ≠ 0x08#8 ∧
      s.name ≠ [0x2e#8] ∧ s.name ≠ [0x2e#8, 0x2e#8] := by
  obtain ⟨hl, h1, h2, h3, a, ha, h4⟩ := h
  have hlen : (e ++ rest).length = 32 + rest.length := by rw [List.length_append, hl]
  obtain ⟨b0, hb0⟩ : ∃ b0, e.head? = some b0 := by
    cases e with
    | nil => simp at hl
    | cons b _ => exact ⟨b, rfl⟩
  have hg0 : R.get (e ++ rest) 0 = .ok b0 := by
    cases e with
    | nil => simp at hl
    | cons b _ => simp at hb0; subst hb0; rfl
  have hg11 : R.get e 11 = .ok a := by simp [R.get, ha]
  constructor
  · unfold entryType
    rw [hg0, R.ok_bind, if_neg (by rintro rfl; exact h1 hb0), R.slice_ok (by omega) (by omega), R.ok_bind,
      R.slice_ok (by omega) (by omega), R.ok_bind, if_neg, R.slice_ok (by omega) (by omega), R.ok_bind, if_neg]
    · rfl
    · intro hz
      have := congrArg List.head? hz
      rw [List.drop_zero, List.head?_take, if_neg (by omega), List.head?_append, hb0] at this
      simp at this
      exact h2 (this ▸ hb0)
    · rintro ⟨hf, -⟩
      have := congrArg List.head? hf
      rw [List.head?_take, if_neg (by omega), List.head?_drop, List.getElem?_append_left (by omega), ha] at this
      simp at this
      rw [this] at h4
      revert h4; decide
  · have hb8 : (e.take 8).head? = some b0 := by rw [List.head?_take, if_neg (by omega), hb0]
    refine ⟨⟨lowerIf ((e[12]'(by omega)) &&& 0x08#8 ≠ 0) (trim (e.take 8)) ++ extension a (e[12]'(by omega)) ((e.drop 8).take 3), a,
      e[12]'(by omega), leNat ((e.drop 26).take 2), leNat ((e.drop 28).take 4)⟩, ?_, ?_, ?_⟩
    · unfold readShort u16le u32le
      rw [R.require_true (by omega), R.ok_bind, hg11, R.ok_bind, R.get_ok (by omega), R.ok_bind,
        R.slice_ok (by omega) (by omega), R.ok_bind, R.slice_ok (by omega) (by omega), R.ok_bind,
        R.slice_ok (by omega) (by omega), R.ok_bind, R.pure_eq, R.ok_bind, R.slice_ok (by omega) (by omega), R.ok_bind,
        R.pure_eq, R.ok_bind]
      rfl
    · show a &&& 0x58#8 ≠ 0x08#8
      have : ∀ a : Byte, a &&& 0x08#8 = 0#8 → a &&& 0x58#8 ≠ 0x08#8 := by decide +kernel
      exact this a h4
    · have hh : ∀ (c : Bool) (ext : List Byte), ∃ x, (lowerIf c (trim (e.take 8)) ++ ext).head? = some x ∧ x ≠ 0x2e#8 := by
        intro c ext
        have := trim_head (field := e.take 8) (by intro h; rw [h] at hb8; simp at hb8)
        rw [hb8] at this
        rw [List.head?_append, lowerIf, List.head?_map, this]
        exact ⟨_, rfl, dot_free c b0 (by rintro rfl; exact h3 hb0)⟩
      constructor
      · intro hn
        obtain ⟨x, hx, hne⟩ := hh (decide ((e[12]'(by omega)) &&& 0x08#8 ≠ 0)) (extension a (e[12]'(by omega)) ((e.drop 8).take 3))
        simp only at hn
        rw [hn] at hx
        simp at hx; exact hne hx.symm
      · intro hn
        obtain ⟨x, hx, hne⟩ := hh (decide ((e[12]'(by omega)) &&& 0x08#8 ≠ 0)) (extension a (e[12]'(by omega)) ((e.drop 8).take 3))
        simp only at hn
        rw [hn] at hx
        simp at hx; exact hne hx.symm

theorem deleted_entry {e : List Byte} (h : e.head? = some 0xe5#8) (rest : List Byte) :
    entryType (e ++ rest) = .ok .unallocated := by
  cases e with
  | nil => simp at h
  | cons b l =>
    simp at h; subst h
    rfl

/-- An entry that is not a long name entry, deleted, or an end mark. -/
theorem short_type {e : List Byte} (hl : e.length = 32) (h1 : e.head? ≠ some 0xe5#8) (h2 : e.head? ≠ some 0x00#8) {a : Byte} (ha : e[11]? = some a) (h4 : a ≠ 0x0f#8)
    (rest : List Byte) : entryType (e ++ rest) = .ok .shortName := by
  have hlen : (e ++ rest).length = 32 + rest.length := by rw [List.length_append, hl]
  obtain ⟨b0, hb0⟩ : ∃ b0, e.head? = some b0 := by
    cases e with
    | nil => simp at hl
    | cons b _ => exact ⟨b, rfl⟩
  have hg0 : R.get (e ++ rest) 0 = .ok b0 := by
    cases e with
    | nil => simp at hl
    | cons b _ => simp at hb0; subst hb0; rfl
  unfold entryType
  rw [hg0, R.ok_bind, if_neg (by rintro rfl; exact h1 hb0), R.slice_ok (by omega) (by omega), R.ok_bind,
    R.slice_ok (by omega) (by omega), R.ok_bind, if_neg, R.slice_ok (by omega) (by omega), R.ok_bind, if_neg]
  · rfl
  · intro hz
    have := congrArg List.head? hz
    rw [List.drop_zero, List.head?_take, if_neg (by omega), List.head?_append, hb0] at this
    simp at this
    exact h2 (this ▸ hb0)
  · rintro ⟨hf, -⟩
    have := congrArg List.head? hf
    rw [List.head?_take, if_neg (by omega), List.head?_drop, List.getElem?_append_left (by omega), ha] at this
    simp at this
    exact h4 this

theorem readShort_eq {e : List Byte} (hl : e.length = 32) : ∃ f c s a, e[11]? = some a ∧
    readShort e = .ok ⟨lowerIf (f &&& 0x08#8 ≠ 0) (trim (e.take 8)) ++ extension a f ((e.drop 8).take 3), a, f, c, s⟩ := by
  refine ⟨e[12]'(by omega), leNat ((e.drop 26).take 2), leNat ((e.drop 28).take 4), e[11]'(by omega), List.getElem?_eq_getElem (by omega), ?_⟩
  unfold readShort u16le u32le
  rw [R.require_true (by omega), R.ok_bind, R.get_ok (by omega), R.ok_bind, R.get_ok (by omega), R.ok_bind,
    R.slice_ok (by omega) (by omega), R.ok_bind, R.slice_ok (by omega) (by omega), R.ok_bind,
    R.slice_ok (by omega) (by omega), R.ok_bind, R.pure_eq, R.ok_bind, R.slice_ok (by omega) (by omega), R.ok_bind,
    R.pure_eq, R.ok_bind]
  rfl

theorem step_dots {fold : Nat → Option Nat} {offset : Nat} {st : State} {e : List Byte} (h : IsDots e) (rest : List Byte) :
    entryType (e ++ rest) = .ok .shortName ∧ stepShort fold offset st e = .ok st := by
  obtain ⟨hl, hd, a, ha, ha8⟩ := h
  have hhead : e.head? = some 0x2e#8 := by
    have : (e.take 11).head? = e.head? := by rw [List.head?_take, if_neg (by omega)]
    rw [← this]
    rcases hd with h | h <;> rw [h] <;> rfl
  refine ⟨short_type hl (by rw [hhead]; decide) (by rw [hhead]; decide) ha (by rintro rfl; revert ha8; decide) rest, ?_⟩
  obtain ⟨f, c, s, a', ha', hr⟩ := readShort_eq hl
  rw [ha, Option.some.injEq] at ha'
  subst ha'
  have t8 : e.take 8 = (e.take 11).take 8 := by rw [List.take_take]; rfl
  have t3 : (e.drop 8).take 3 = (e.take 11).drop 8 := by rw [List.drop_take]
  have hn : ∀ a : Byte, a &&& 0x08#8 = 0#8 → ¬ (a &&& 0x58#8 = 0x08#8) := by decide +kernel
  unfold stepShort
  rw [hr, R.ok_bind, if_neg (hn a ha8), t8, t3]
  rw [if_pos]
  · rfl
  · rcases hd with h | h
    · left
      rw [h]
      show lowerIf _ _ ++ extension _ _ [0x20#8, 0x20#8, 0x20#8] = _
      have : ∀ c, lowerIf c (trim (List.take 8 (0x2e#8 :: List.replicate 10 0x20#8))) = [0x2e#8] := by decide
      rw [this]
      simp [extension]
    · right
      rw [h]
      show lowerIf _ _ ++ extension _ _ [0x20#8, 0x20#8, 0x20#8] = _
      have : ∀ c, lowerIf c (trim (List.take 8 (0x2e#8 :: 0x2e#8 :: List.replicate 9 0x20#8))) = [0x2e#8, 0x2e#8] := by decide
      rw [this]
      simp [extension]

theorem step_label {fold : Nat → Option Nat} {offset : Nat} {st : State} {e : List Byte} (h : IsLabel e) (rest : List Byte) :
    entryType (e ++ rest) = .ok .shortName ∧ ∃ l, stepShort fold offset st e = .ok { st with label := some l } := by
  obtain ⟨hl, h1, h2, ha⟩ := h
  obtain ⟨a, ha, h3, h4⟩ : ∃ a, e[11]? = some a ∧ a ≠ 0x0f#8 ∧ a &&& 0x58#8 = 0x08#8 := by
    rcases ha with h | h
    · exact ⟨_, h, by decide, by decide⟩
    · exact ⟨_, h, by decide, by decide⟩
  refine ⟨short_type hl h1 h2 ha h3 rest, ?_⟩
  obtain ⟨f, c, s, a', ha', hr⟩ := readShort_eq hl
  rw [ha, Option.some.injEq] at ha'
  subst ha'
  unfold stepShort
  rw [hr, R.ok_bind, if_pos h4]
  exact ⟨_, rfl⟩

/-- The directory ends with the data or with an entry of zeros, whatever follows it. -/
def Ends (tail : List Byte) : Prop := tail = [] ∨ ∃ junk, tail = List.replicate 32 0#8 ++ junk

theorem readData_ends {fold : Nat → Option Nat} {offset : Nat} {st : State} {tail : List Byte} (h : Ends tail) :
    readData fold offset st tail = .ok st := by
  rcases h with rfl | ⟨junk, rfl⟩
  · unfold readData; rfl
  · have ht : entryType (List.replicate 32 0#8 ++ junk) = .ok .terminator := by
      unfold entryType
      rw [show R.get (List.replicate 32 0#8 ++ junk) 0 = .ok 0#8 from rfl, R.ok_bind, if_neg (by decide),
        R.slice_ok (by omega) (by simp), R.ok_bind, R.slice_ok (by omega) (by simp), R.ok_bind, if_neg,
        R.slice_ok (by omega) (by simp), R.ok_bind, if_pos]
      · rfl
      · rw [List.drop_zero, take_append_eq (by simp)]
      · rintro ⟨h, -⟩
        have : (List.drop 11 (List.replicate 32 0#8 ++ junk)).take (13 - 11) = [0#8, 0#8] := by
          rw [List.drop_append, List.drop_replicate]; simp [List.replicate]
        rw [this] at h
        revert h; decide
    unfold readData
    rw [dif_neg (by simp), dif_neg (by simp), ht]
    rfl

/-- Adding entries to the map. -/
def addAll (fold : Nat → Option Nat) (m : List (List Nat × Entry)) (es : List Entry) : List (List Nat × Entry) :=
  es.foldl (fun m e => Keramics.FatDir.insert m (lookupName fold e) e) m

/-- The directory read so far with the file of a short name entry added. -/
def added (fold : Nat → Option Nat) (offset : Nat) (st : State) (s : ShortEntry) : State :=
  let e : Entry := ⟨offset % 2 ^ 32, s, longName st.longs⟩
  ⟨st.last, [], Keramics.FatDir.insert st.entries (lookupName fold e) e, st.label⟩

theorem readData_items {fold : Nat → Option Nat} (items : List Item) (hok : ∀ i ∈ items, i.Ok) (tail : List Byte) (offset : Nat)
    (ho : offset + (items.flatMap Item.bytes).length < 2 ^ 64) (st : State) (hst : st.longs = []) :
    ∃ st' es offset', readData fold offset st (items.flatMap Item.bytes ++ tail) = readData fold offset' st' tail ∧
      offset' = offset + (items.flatMap Item.bytes).length ∧
      st'.longs = [] ∧ st'.entries = addAll fold st.entries es ∧
      List.Forall₂ (fun p e => e.long = p.1 ∧ readShort p.2 = .ok e.short) (items.flatMap Item.names) es ∧
      (st.last ≤ 1 → st'.last ≤ 1) := by
  induction items generalizing offset st with
  | nil => exact ⟨st, [], offset, by simp, by simp, hst, rfl, by simp, id⟩
  | cons item items ih =>
    have hi := hok item (by simp)
    have hrest := fun i h => hok i (List.mem_cons_of_mem item h)
    rw [List.flatMap_cons, List.length_append] at ho
    -- reading a short entry with pending long entries
    have hshort : ∀ (entry : List Byte) (offset : Nat) (st : State), IsFile entry →
        offset + 32 + (items.flatMap Item.bytes).length < 2 ^ 64 →
        ∃ st' e es offset', readData fold offset st (entry ++ (items.flatMap Item.bytes ++ tail)) = readData fold offset' st' tail ∧
          offset' = offset + 32 + (items.flatMap Item.bytes).length ∧
          st'.longs = [] ∧ st'.entries = addAll fold st.entries (e :: es) ∧ e.long = longName st.longs ∧
          readShort entry = .ok e.short ∧
          List.Forall₂ (fun p e => e.long = p.1 ∧ readShort p.2 = .ok e.short) (items.flatMap Item.names) es ∧
          (st.last ≤ 1 → st'.last ≤ 1) := by
      intro entry offset st hf ho
      obtain ⟨h1, s, h2, h3, h4, h5⟩ := file_entry hf (items.flatMap Item.bytes ++ tail)
      rw [readData_short hf.1 h1 (by omega)]
      have hstep : stepShort fold offset st entry = .ok (added fold offset st s) := by
        unfold stepShort
        rw [h2, R.ok_bind, if_neg h3, if_neg (by rintro (h | h); exacts [h4 h, h5 h])]
        rfl
      rw [hstep, R.ok_bind]
      obtain ⟨st', es, offset', e1, e2, e3, e4, e5, e6⟩ := ih hrest (offset + 32) ho (added fold offset st s) rfl
      exact ⟨st', ⟨offset % 2 ^ 32, s, longName st.longs⟩, es, offset', e1, e2, e3, e4, rfl, h2, e5, e6⟩
    rw [List.flatMap_cons, List.flatMap_cons, List.append_assoc]
    cases item with
    | long name checksum entry =>
      obtain ⟨n1, n2, n3, hf⟩ := hi
      obtain ⟨p1, p2, p3, p4⟩ := pieces_spec name n1 n3
      have hlen : (Item.long name checksum entry).bytes.length = 32 * (pieces name).length + 32 := by
        have : ∀ (ps : List (List Nat)) (k : Nat), (∀ p ∈ ps, IsPiece p) → (longEntries checksum k ps).length = 32 * ps.length := by
          intro ps
          induction ps with
          | nil => intros; rfl
          | cons p ps ih' =>
            intro k hp
            cases ps with
            | nil => simp only [longEntries, List.length_cons, List.length_nil]; rw [longEntry_length _ _ (hp p (by simp)).1]
            | cons q qs =>
              have := ih' (k + 1) (fun x hx => hp x (List.mem_cons_of_mem _ hx))
              rw [longEntries, List.length_append, this, longEntry_length _ _ (hp p (by simp)).1]
              · simp only [List.length_cons]; omega
              · simp
        show (longEntries checksum 1 (pieces name) ++ entry).length = _
        rw [List.length_append, this _ _ p1, hf.1]
      rw [hlen] at ho
      obtain ⟨st1, q1, q2, q3, q4, q5, q6⟩ := readData_longEntries (fold := fold) checksum (pieces name) p3 p1 1 (by omega) (by omega)
        offset st (entry ++ (items.flatMap Item.bytes ++ tail)) (by omega)
      obtain ⟨st', e, es, offset', e1, e2, e3, e4, e5, e6, e7, e8⟩ := hshort entry (offset + 32 * (pieces name).length) st1 hf (by omega)
      refine ⟨st', e :: es, offset', ?_, ?_, e3, ?_, ?_, fun _ => e8 (by omega)⟩
      · show readData fold offset st ((longEntries checksum 1 (pieces name) ++ entry) ++ (items.flatMap Item.bytes ++ tail)) = _
        rw [List.append_assoc, q1, e1]
      · rw [List.length_append, hlen, e2]; omega
      · rw [e4, q2]
      · refine List.Forall₂.cons ⟨?_, e6⟩ e7
        rw [e5, longName, if_neg q5, q6, p2]
    | short entry =>
      have hlen : (Item.short entry).bytes.length = 32 := hi.1
      rw [hlen] at ho
      obtain ⟨st', e, es, offset', e1, e2, e3, e4, e5, e6, e7, e8⟩ := hshort entry offset st hi (by omega)
      refine ⟨st', e :: es, offset', e1, ?_, e3, e4, List.Forall₂.cons ⟨?_, e6⟩ e7, e8⟩
      · rw [List.length_append, hlen, e2]; omega
      · rw [e5, hst]; rfl
    | deleted entry =>
      have hlen : (Item.deleted entry).bytes.length = 32 := hi.1
      rw [hlen] at ho
      obtain ⟨st', es, offset', e1, e2, e3, e4, e5, e6⟩ := ih hrest (offset + 32) (by omega) st hst
      refine ⟨st', es, offset', ?_, ?_, e3, e4, e5, e6⟩
      · show readData fold offset st (entry ++ _) = _
        rw [readData_deleted hi.1 (deleted_entry hi.2 _) (by omega), e1]
      · rw [List.length_append, hlen, e2]; omega
    | dots entry =>
      have hlen : (Item.dots entry).bytes.length = 32 := hi.1
      rw [hlen] at ho
      obtain ⟨st', es, offset', e1, e2, e3, e4, e5, e6⟩ := ih hrest (offset + 32) (by omega) st hst
      refine ⟨st', es, offset', ?_, ?_, e3, e4, e5, e6⟩
      · show readData fold offset st (entry ++ _) = _
        obtain ⟨t1, t2⟩ := step_dots (fold := fold) (offset := offset) (st := st) hi (items.flatMap Item.bytes ++ tail)
        rw [readData_short hi.1 t1 (by omega), t2, R.ok_bind, e1]
      · rw [List.length_append, hlen, e2]; omega
    | label entry =>
      have hlen : (Item.label entry).bytes.length = 32 := hi.1
      rw [hlen] at ho
      obtain ⟨t1, l, t2⟩ := step_label (fold := fold) (offset := offset) (st := st) hi (items.flatMap Item.bytes ++ tail)
      obtain ⟨st', es, offset', e1, e2, e3, e4, e5, e6⟩ := ih hrest (offset + 32) (by omega) { st with label := some l } hst
      refine ⟨st', es, offset', ?_, ?_, e3, e4, e5, e6⟩
      · show readData fold offset st (entry ++ _) = _
        rw [readData_short hi.1 t1 (by omega), t2, R.ok_bind, e1]
      · rw [List.length_append, hlen, e2]; omega

theorem forall₂_append_left {α β : Type} {R : α → β → Prop} (a b : List α) (es : List β) (h : List.Forall₂ R (a ++ b) es) :
    ∃ es1 es2, List.Forall₂ R a es1 ∧ List.Forall₂ R b es2 ∧ es = es1 ++ es2 := by
  induction a generalizing es with
  | nil => exact ⟨[], es, List.Forall₂.nil, h, rfl⟩
  | cons x a ih =>
    cases h with
    | cons h1 h2 =>
      obtain ⟨es1, es2, f1, f2, rfl⟩ := ih _ h2
      exact ⟨_ :: es1, es2, List.Forall₂.cons h1 f1, f2, rfl⟩

theorem find_insert (m : List (List Nat × Entry)) (k key : List Nat) (e : Entry) :
    (Keramics.FatDir.insert m k e).find? (·.1 = key) = if k = key then some (k, e) else m.find? (·.1 = key) := by
  unfold Keramics.FatDir.insert
  rw [List.find?_append]
  by_cases h : k = key
  · subst h
    have : (m.filter (·.1 ≠ k)).find? (·.1 = k) = none := by
      rw [List.find?_eq_none]
      intro x hx
      have := (List.mem_filter.1 hx).2
      simpa using this
    rw [this]; simp
  · have : (m.filter (·.1 ≠ k)).find? (·.1 = key) = m.find? (·.1 = key) := by
      rw [List.find?_filter]
      congr 1
      funext x
      by_cases hx : x.1 = key
      · simp [hx, Ne.symm h]
      · simp [hx]
    rw [this]; simp [h]

theorem find_addAll (fold : Nat → Option Nat) (es : List Entry) (m : List (List Nat × Entry)) (key : List Nat) :
    ((addAll fold m es).find? (·.1 = key)).map Prod.snd =
      (es.reverse.find? (fun e => lookupName fold e = key)).or ((m.find? (·.1 = key)).map Prod.snd) := by
  induction es generalizing m with
  | nil => simp [addAll]
  | cons e es ih =>
    have : addAll fold m (e :: es) = addAll fold (Keramics.FatDir.insert m (lookupName fold e) e) es := rfl
    rw [this, ih, find_insert, List.reverse_cons, List.find?_append, Option.or_assoc]
    congr 1
    by_cases h : lookupName fold e = key <;> simp [h]

theorem out_of_sequence {fold : Nat → Option Nat} {offset : Nat} (st1 : State) (checksum' : Byte) {number' : Nat} {piece' : List Nat}
    {rest : List Byte} (i2 : IsPiece piece')
    (hn' : 1 ≤ number' ∧ number' ≤ 19) (hseq : number' + 1 ≠ st1.last) (ho : offset + 32 < 2 ^ 64) :
    readData fold offset st1 (longEntry checksum' number' piece' ++ rest) = .err := by
  rw [readData_long (longEntry_length _ _ i2.1) (entryType_long _ _ i2.1 _ (by omega)) (by omega)]
  have hstep : stepLong st1 (longEntry checksum' number' piece') = .err := by
    unfold stepLong
    obtain ⟨_, hl2⟩ := last_numbers ⟨number', by omega⟩ hn'.1
    rw [readLong_entry _ _ i2, R.ok_bind]
    simp only at hl2 ⊢
    rw [low_five, R.addU_ok (by omega), R.ok_bind, if_neg (by rw [hl2]; simp), if_pos (by intro hc; apply hseq; rw [← hc]; omega)]
  rw [hstep]; rfl

end FatDirLemmas
open FatDirLemmas

theorem names_entries (fold : Nat → Option Nat) (offset : Nat) (items : List Item) (hok : ∀ i ∈ items, i.Ok) (tail : List Byte)
    (htail : tail = [] ∨ ∃ junk, tail = List.replicate 32 0#8 ++ junk)
    (ho : offset + (items.flatMap Item.bytes).length < 2 ^ 64) :
    ∃ st es, readData fold offset Keramics.FatDir.init (items.flatMap Item.bytes ++ tail) = .ok st ∧
      List.Forall₂ (fun p e => e.long = p.1 ∧ readShort p.2 = .ok e.short) (items.flatMap Item.names) es ∧ st.entries = addAll fold [] es ∧
      ∀ key, find st key = es.reverse.find? (fun e => lookupName fold e = key) := by
  obtain ⟨st, es, offset', e1, -, -, e4, e5, -⟩ := readData_items (fold := fold) items hok tail offset ho Keramics.FatDir.init rfl
  refine ⟨st, es, ?_, e5, e4, fun key => ?_⟩
  · rw [e1, readData_ends htail]
  · unfold Keramics.FatDir.find
    rw [e4, find_addAll]
    simp [Keramics.FatDir.init]

/-- C32: reading a directory with any sequence of long named, short named and deleted entries yields one
entry per stored file, in order, with the name it was stored under; a name is looked up, after case
folding, as the last file stored with it. -/
theorem C32_names (fold : Nat → Option Nat) (offset : Nat) (items : List Item) (hok : ∀ i ∈ items, i.Ok) (tail : List Byte)
    (htail : tail = [] ∨ ∃ junk, tail = List.replicate 32 0#8 ++ junk)
    (ho : offset + (items.flatMap Item.bytes).length < 2 ^ 64) :
    ∃ st es, readData fold offset Keramics.FatDir.init (items.flatMap Item.bytes ++ tail) = .ok st ∧
      List.Forall₂ (fun p e => e.long = p.1 ∧ readShort p.2 = .ok e.short) (items.flatMap Item.names) es ∧
      ∀ key, find st key = es.reverse.find? (fun e => lookupName fold e = key) := by
  obtain ⟨st, es, h1, h2, -, h3⟩ := names_entries fold offset items hok tail htail ho
  exact ⟨st, es, h1, h2, h3⟩

/-- C32: a file with a long name whose folded name no later file of the directory has is found under its
name in any case. -/
theorem C32_lookup (fold : Nat → Option Nat) (offset : Nat) (before after : List Item) (name : List Nat) (checksum : Byte)
    (short : List Byte) (hok : ∀ i ∈ before ++ Item.long name checksum short :: after, i.Ok) (tail : List Byte)
    (htail : tail = [] ∨ ∃ junk, tail = List.replicate 32 0#8 ++ junk)
    (ho : offset + ((before ++ Item.long name checksum short :: after).flatMap Item.bytes).length < 2 ^ 64)
    (hlast : ∀ p ∈ after.flatMap Item.names, ∃ n, p.1 = some n ∧ Ucs2.caseFold fold n ≠ Ucs2.caseFold fold name)
    (query : List Nat) (hq : Ucs2.caseFold fold query = Ucs2.caseFold fold name) :
    ∃ st e, readData fold offset Keramics.FatDir.init
        ((before ++ Item.long name checksum short :: after).flatMap Item.bytes ++ tail) = .ok st ∧
      find st (Ucs2.caseFold fold query) = some e ∧ e.long = some name ∧ readShort short = .ok e.short := by
  obtain ⟨st, es, h1, h2, h3⟩ := C32_names fold offset _ hok tail htail ho
  rw [List.flatMap_append, List.flatMap_cons] at h2
  obtain ⟨es1, es2, f1, f2, rfl⟩ := forall₂_append_left _ _ _ h2
  cases f2 with
  | cons hd tl =>
    rename_i e es2
    replace tl : List.Forall₂ (fun p (e : Entry) => e.long = p.1 ∧ readShort p.2 = .ok e.short) (after.flatMap Item.names) es2 := tl
    refine ⟨st, e, h1, ?_, hd.1, hd.2⟩
    rw [h3, List.reverse_append, List.find?_append, List.reverse_cons, List.find?_append]
    have hnone : es2.reverse.find? (fun e => lookupName fold e = Ucs2.caseFold fold query) = none := by
      rw [List.find?_eq_none]
      intro x hx
      rw [List.mem_reverse] at hx
      obtain ⟨p, hp, hpx⟩ : ∃ p, p ∈ after.flatMap Item.names ∧ x.long = p.1 := by
        clear hlast h2 h3 h1 f1
        generalize after.flatMap Item.names = l at tl
        induction tl with
        | nil => cases hx
        | cons h t ih =>
          rcases List.mem_cons.1 hx with rfl | hx
          · exact ⟨_, by simp, h.1⟩
          · obtain ⟨p, hp, h'⟩ := ih hx
            exact ⟨p, List.mem_cons_of_mem _ hp, h'⟩
      obtain ⟨n, hn, hne⟩ := hlast p hp
      simp only [lookupName, hpx, hn, decide_eq_true_eq]
      rw [hq]; exact hne
    rw [hnone]
    have : lookupName fold e = Ucs2.caseFold fold query := by
      simp only [lookupName, hd.1]; exact hq.symm
    simp [this]

/-- C32: when the entries of a name have been read down to number `k + 1`, a long name entry of any other
number than `k` that does not start a name is an error. -/
theorem C32_out_of_sequence (fold : Nat → Option Nat) (offset : Nat) (items : List Item) (hok : ∀ i ∈ items, i.Ok)
    (checksum checksum' : Byte) (name name' : List Nat) (hn : 0 < name.length ∧ name.length ≤ 255 ∧ ∀ u ∈ name, 0 < u ∧ u < 2 ^ 16)
    (hn' : 0 < name'.length ∧ ∀ u ∈ name', 0 < u ∧ u < 2 ^ 16) (k : Nat) (hk : k < (pieces name).length)
    (number' : Nat) (piece' : List Nat) (hp' : piece' ∈ pieces name') (hnum : 1 ≤ number' ∧ number' ≤ 19) (hseq : number' ≠ k)
    (rest : List Byte) (ho : offset + (items.flatMap Item.bytes).length + 32 * 21 < 2 ^ 64) :
    readData fold offset Keramics.FatDir.init (items.flatMap Item.bytes ++
      (longEntries checksum (k + 1) ((pieces name).drop k) ++ (longEntry checksum' number' piece' ++ rest))) = .err := by
  obtain ⟨st, es, offset', e1, e2, -, -, -, -⟩ := readData_items (fold := fold) items hok
    (longEntries checksum (k + 1) ((pieces name).drop k) ++ (longEntry checksum' number' piece' ++ rest)) offset (by omega) Keramics.FatDir.init rfl
  obtain ⟨p1, p2, p3, p4⟩ := Keramics.FatDir.pieces_spec name hn.1 hn.2.2
  have i2 := (Keramics.FatDir.pieces_spec name' hn'.1 hn'.2).1 piece' hp'
  have hl : ((pieces name).drop k).length = (pieces name).length - k := List.length_drop
  obtain ⟨st1, q1, q2, q3, q4, q5, q6⟩ := Keramics.FatDir.readData_longEntries (fold := fold) checksum ((pieces name).drop k)
    (by intro h; rw [h] at hl; simp at hl; omega) (fun p hp => p1 p (List.mem_of_mem_drop hp))
    (k + 1) (by omega) (by omega) offset' st (longEntry checksum' number' piece' ++ rest) (by omega)
  rw [e1, q1, out_of_sequence _ _ i2 hnum (by omega) (by omega)]

/-- C32: a long name entry without the start of its name, at the beginning or behind complete names, is an
error. -/
theorem C32_no_start (fold : Nat → Option Nat) (offset : Nat) (items : List Item) (hok : ∀ i ∈ items, i.Ok)
    (checksum' : Byte) (name' : List Nat) (hn' : 0 < name'.length ∧ ∀ u ∈ name', 0 < u ∧ u < 2 ^ 16)
    (number' : Nat) (piece' : List Nat) (hp' : piece' ∈ pieces name') (hnum : 1 ≤ number' ∧ number' ≤ 19)
    (rest : List Byte) (ho : offset + (items.flatMap Item.bytes).length + 32 * 21 < 2 ^ 64) :
    readData fold offset Keramics.FatDir.init (items.flatMap Item.bytes ++ (longEntry checksum' number' piece' ++ rest)) = .err := by
  obtain ⟨st, es, offset', e1, e2, -, -, -, hl⟩ := readData_items (fold := fold) items hok
    (longEntry checksum' number' piece' ++ rest) offset (by omega) Keramics.FatDir.init rfl
  have i2 := (Keramics.FatDir.pieces_spec name' hn'.1 hn'.2).1 piece' hp'
  have hl := hl (by decide)
  rw [e1, out_of_sequence _ _ i2 hnum (by omega) (by omega)]

/-- The hypotheses are met: a name of 15 units in two entries, a deleted entry and a file without long name. -/
example : let short := [0x41#8] ++ List.replicate 10 0x20#8 ++ [0x20#8] ++ List.replicate 20 0#8
    ∀ i ∈ [Item.long [97, 98, 99, 100, 101, 102, 103, 104, 105, 106, 107, 108, 109, 110, 111] 7#8 short,
      .deleted (0xe5#8 :: List.replicate 31 0#8), .short short], i.Ok := by
  intro short i hi
  have hs : IsFile short := ⟨rfl, by decide, by decide, by decide, 0x20#8, rfl, by decide⟩
  simp only [List.mem_cons, List.not_mem_nil, or_false] at hi
  rcases hi with rfl | rfl | rfl
  · exact ⟨by decide, by decide, by decide, hs⟩
  · exact ⟨rfl, rfl⟩
  · exact hs

namespace FatDirLemmas
open Keramics.FatDir

theorem trim_pad {n : Nat} {field : List Byte} (h0 : field ≠ []) (hn : field.length ≤ n) (hl : field.getLast? ≠ some 0x20#8) : trim (pad n field) = field := by
  unfold trim pad
  obtain ⟨init, last, rfl⟩ : ∃ init last, field = init ++ [last] := ⟨field.dropLast, field.getLast h0, (List.dropLast_concat_getLast h0).symm⟩
  rw [List.getLast?_append, List.getLast?_singleton] at hl
  have hl : last ≠ 0x20#8 := by simpa using hl
  have : (init ++ [last] ++ List.replicate (n - (init ++ [last]).length) 0x20#8).reverse.findIdx? (· ≠ 0x20#8) = some (n - (init ++ [last]).length) := by
    rw [List.findIdx?_eq_some_iff_getElem]
    refine ⟨by simp, ?_, ?_⟩
    · simp [hl]
    · intro j hj
      simp only [List.reverse_append, List.reverse_replicate]
      rw [List.getElem_append_left (by rw [List.length_replicate]; exact hj)]
      simp
  rw [this]
  simp only [List.length_append, List.length_replicate, List.length_cons, List.length_nil] at hn ⊢
  rw [List.take_append_of_le_length (by simp), List.take_of_length_le (by simp)]

theorem lowerIf_eq (c : Bool) (field : List Byte) : lowerIf c field = if c then field.map lowerCase else field := by
  unfold lowerIf
  cases c
  · simp
  · simp [lowerCase]

theorem pad_length {n : Nat} {field : List Byte} (h : field.length ≤ n) : (pad n field).length = n := by unfold pad; simp; omega

theorem bytes_length {s : Short} (h : s.Ok) : s.bytes.length = 32 := by
  obtain ⟨h1, h2, h3, -, -, -, -, -, -, -, -, h12, -⟩ := h
  unfold Short.bytes
  simp only [List.length_append, pad_length h2, pad_length h3, leBytes_length, h12, List.length_cons, List.length_nil]

theorem isFile {s : Short} (h : s.Ok) : IsFile s.bytes := by
  have hl := bytes_length h
  obtain ⟨h1, h2, h3, h4, h5, h6, h7, h8, h9, h10, h11, h12, h13, h14⟩ := h
  have hh : s.bytes.head? = s.base.head? := by
    unfold Short.bytes pad
    cases hb : s.base with
    | nil => rw [hb] at h1; cases h1
    | cons b l => simp
  refine ⟨hl, by rw [hh]; exact h6, by rw [hh]; exact h7, by rw [hh]; exact h8, s.attributes, ?_, h11⟩
  unfold Short.bytes
  simp only [List.append_assoc]
  rw [List.getElem?_append_right (by rw [pad_length h2]; omega), pad_length h2, List.getElem?_append_right (by rw [pad_length h3]), pad_length h3]
  rfl

theorem slice_parts (a b c : List Byte) : R.slice (a ++ (b ++ c)) a.length (a.length + b.length) = .ok b := by
  rw [R.slice_ok (by omega) (by simp)]
  simp

end FatDirLemmas
open FatDirLemmas

/-- C32: a short name entry is read as its name, its attributes, flags, cluster and size. -/
theorem C32_short_name (s : Short) (h : s.Ok) : readShort s.bytes = .ok ⟨s.display, s.attributes, s.flags, s.cluster, s.size⟩ := by
  have hlen := bytes_length h
  obtain ⟨h1, h2, h3, h4, h5, h6, h7, h8, h9, h10, h11, h12, h13, h14⟩ := h
  have e : s.bytes = pad 8 s.base ++ (pad 3 s.ext ++ (s.attributes :: s.flags :: (s.times ++ (leBytes 2 s.cluster ++ leBytes 4 s.size)))) := by
    simp [Short.bytes]
  have p8 := pad_length h2
  have p3 := pad_length h3
  have g11 : R.get s.bytes 11 = .ok s.attributes := by
    unfold R.get
    rw [e, List.getElem?_append_right (by omega), p8, List.getElem?_append_right (by omega), p3]; rfl
  have g12 : R.get s.bytes 12 = .ok s.flags := by
    unfold R.get
    rw [e, List.getElem?_append_right (by omega), p8, List.getElem?_append_right (by omega), p3]; rfl
  have g0 : R.slice s.bytes 0 8 = .ok (pad 8 s.base) := by
    have := slice_parts [] (pad 8 s.base) (pad 3 s.ext ++ (s.attributes :: s.flags :: (s.times ++ (leBytes 2 s.cluster ++ leBytes 4 s.size))))
    rw [p8] at this
    rw [e]; exact this
  have g8 : R.slice s.bytes 8 11 = .ok (pad 3 s.ext) := by
    have := slice_parts (pad 8 s.base) (pad 3 s.ext) (s.attributes :: s.flags :: (s.times ++ (leBytes 2 s.cluster ++ leBytes 4 s.size)))
    rw [p8, p3] at this
    rw [e]; exact this
  have g26 : R.slice s.bytes 26 28 = .ok (leBytes 2 s.cluster) := by
    have := slice_parts (pad 8 s.base ++ (pad 3 s.ext ++ (s.attributes :: s.flags :: s.times))) (leBytes 2 s.cluster) (leBytes 4 s.size)
    simp only [List.length_append, p8, p3, List.length_cons, h12, leBytes_length] at this
    rw [e]; simpa using this
  have g28 : R.slice s.bytes 28 32 = .ok (leBytes 4 s.size) := by
    have := slice_parts (pad 8 s.base ++ (pad 3 s.ext ++ (s.attributes :: s.flags :: (s.times ++ leBytes 2 s.cluster)))) (leBytes 4 s.size) []
    simp only [List.length_append, p8, p3, List.length_cons, h12, leBytes_length] at this
    rw [e]; simpa using this
  unfold readShort u16le u32le
  rw [R.require_true (by omega), R.ok_bind, g11, R.ok_bind, g12, R.ok_bind, g0, R.ok_bind, g8, R.ok_bind, g26, R.ok_bind, R.pure_eq, R.ok_bind, g28, R.ok_bind, R.pure_eq, R.ok_bind,
    R.pure_eq, leNat_leBytes, leNat_leBytes, Nat.mod_eq_of_lt h13, Nat.mod_eq_of_lt h14]
  have hb3 : ∀ f : Byte, (decide (f &&& 0x08#8 ≠ 0)) = f.getLsbD 3 := by decide +kernel
  have hb4 : ∀ f : Byte, (decide (f &&& 0x10#8 ≠ 0)) = f.getLsbD 4 := by decide +kernel
  have ha : ∀ a : Byte, a &&& 0x08#8 = 0#8 → a &&& 0x58#8 ≠ 0x08#8 := by decide +kernel
  congr 2
  unfold Short.display FatDir.extension
  rw [hb3, hb4, lowerIf_eq, trim_pad (by intro hc; rw [hc] at h1; cases h1) h2 h4]
  congr 1
  cases hx : s.ext with
  | nil => simp [pad]
  | cons x xs =>
    have hhead : (pad 3 (x :: xs)).head? = some x := rfl
    rw [hx] at h9 h10
    rw [hhead, if_pos ⟨by simpa using h9, by simpa using h10⟩, if_pos (ha _ h11), lowerIf_eq, ← hx, trim_pad (by rw [hx]; simp) h3 h5, if_neg (show ¬ s.ext = [] by rw [hx]; simp)]
    rfl

namespace FatDirLemmas
open Keramics.FatDir

theorem stored_item_ok {s : Stored} (h : s.Ok) : s.item.Ok := by
  match s, h with
  | .file (some (name, c)) short, ⟨a, b, c', d⟩ => exact ⟨a, b, c', isFile d⟩
  | .file none short, h => exact isFile h.1
  | .deleted e, h => exact h
  | .dots e, h => exact h
  | .label e, h => exact h

theorem lower_upper (b : Byte) (h : b.toNat < 128) : (lowerCase b).toNat < 128 := by
  revert b; decide +kernel

/-- The key of a file is its name folded. -/
theorem key_eq {fold : Nat → Option Nat} (hfold : ∀ u, u < 128 → (fold u).getD u = if 97 ≤ u ∧ u ≤ 122 then u - 32 else u)
    {s : Stored} (hs : s.Ok) {f : Option (List Nat) × Short} (hf : f ∈ s.files) {e : Entry} (hl : e.long = f.1) (hn : e.short.name = f.2.display) :
    lookupName fold e = folded fold (fileName f) := by
  match s, hs, hf with
  | .file (some (name, c)) short, _, hf =>
    simp only [Stored.files, List.mem_singleton, Option.map_some] at hf
    subst hf
    simp only at hl
    simp [lookupName, hl, fileName, folded, Ucs2.caseFold]
  | .file none short, hs, hf =>
    simp only [Stored.files, List.mem_singleton, Option.map_none] at hf
    subst hf
    simp only at hl hn
    simp only [lookupName, hl, fileName, folded, hn, Option.getD_none, List.map_map]
    apply List.map_congr_left
    intro b hb
    have : b.toNat < 128 := by
      unfold Short.display at hb
      rw [List.mem_append] at hb
      rcases hb with hb | hb
      · split at hb
        · obtain ⟨x, hx, rfl⟩ := List.mem_map.1 hb
          exact lower_upper x (hs.2 x (List.mem_append_left _ hx))
        · exact hs.2 b (List.mem_append_left _ hb)
      · split at hb
        · cases hb
        · rcases List.mem_cons.1 hb with rfl | hb
          · decide
          split at hb
          · obtain ⟨x, hx, rfl⟩ := List.mem_map.1 hb
            exact lower_upper x (hs.2 x (List.mem_append_right _ hx))
          · exact hs.2 b (List.mem_append_right _ hb)
    simp only [Function.comp_apply]
    rw [hfold _ this]

theorem find_zip {α β : Type} {R : α → β → Prop} (as : List α) (bs : List β) (h : List.Forall₂ R as bs) (p : β → Bool) (q : α → Bool)
    (hpq : ∀ a b, a ∈ as → R a b → p b = q a) : bs.reverse.find? p = ((as.zip bs).reverse.find? fun x => q x.1).map Prod.snd := by
  induction h with
  | nil => rfl
  | @cons a b as bs h1 h2 ih =>
    rw [List.reverse_cons, List.find?_append, List.zip_cons_cons, List.reverse_cons, List.find?_append, ih fun a b ha hr => hpq a b (List.mem_cons_of_mem _ ha) hr,
      Option.map_or]
    congr 1
    have := hpq a b (by simp) h1
    by_cases hq : q a = true
    · simp [this, hq]
    · simp [this, hq]

end FatDirLemmas
open FatDirLemmas

theorem directory_entries (fold : Nat → Option Nat) (hfold : ∀ u, u < 128 → (fold u).getD u = if 97 ≤ u ∧ u ≤ 122 then u - 32 else u)
    (offset : Nat) (stored : List Stored) (hok : ∀ s ∈ stored, s.Ok) (tail : List Byte)
    (htail : tail = [] ∨ ∃ junk, tail = List.replicate 32 0#8 ++ junk) (ho : offset + (stored.flatMap fun s => s.item.bytes).length < 2 ^ 64) :
    ∃ st es, readData fold offset Keramics.FatDir.init ((stored.flatMap fun s => s.item.bytes) ++ tail) = .ok st ∧
      List.Forall₂ (fun f (e : Entry) => e.long = f.1 ∧ e.short = ⟨f.2.display, f.2.attributes, f.2.flags, f.2.cluster, f.2.size⟩) (stored.flatMap Stored.files) es ∧
      st.entries = addAll fold [] es ∧ (∀ e ∈ es, ∃ name, lookupName fold e = Ucs2.caseFold fold name) ∧
      ∀ query, find st (Ucs2.caseFold fold query) =
        (((stored.flatMap Stored.files).zip es).reverse.find? fun p => folded fold (fileName p.1) = folded fold query).map Prod.snd := by
  have hm : (stored.flatMap fun s => s.item.bytes) = (stored.map Stored.item).flatMap Item.bytes := by rw [List.flatMap_map]
  rw [hm] at ho ⊢
  obtain ⟨st, es, h1, h2, h0, h3⟩ := names_entries fold offset (stored.map Stored.item) (by
    intro i hi
    obtain ⟨s, hs, rfl⟩ := List.mem_map.1 hi
    exact stored_item_ok (hok s hs)) tail htail ho
  have h4 : List.Forall₂ (fun f (e : Entry) => e.long = f.1 ∧ e.short = ⟨f.2.display, f.2.attributes, f.2.flags, f.2.cluster, f.2.size⟩) (stored.flatMap Stored.files) es := by
    have hn : ((stored.map Stored.item).flatMap Item.names) = (stored.flatMap Stored.files).map fun f => (f.1, f.2.bytes) := by
      rw [List.flatMap_map, List.map_flatMap]
      congr 1
      funext s
      match s with
      | .file (some _) _ => rfl
      | .file none _ => rfl
      | .deleted _ => rfl
      | .dots _ => rfl
      | .label _ => rfl
    rw [hn] at h2
    have hall : ∀ f ∈ stored.flatMap Stored.files, f.2.Ok := by
      intro f hf
      obtain ⟨s, hs, hf⟩ := List.mem_flatMap.1 hf
      have := hok s hs
      match s, this, hf with
      | .file (some (name, c)) short, ⟨_, _, _, d⟩, hf => simp only [Stored.files, List.mem_singleton] at hf; subst hf; exact d
      | .file none short, d, hf => simp only [Stored.files, List.mem_singleton] at hf; subst hf; exact d.1
    clear h3 h0 h1 hn ho hm htail
    generalize stored.flatMap Stored.files = fs at h2 hall
    induction fs generalizing es with
    | nil => cases h2; exact .nil
    | cons f fs ih =>
      cases h2 with
      | cons a b =>
        refine .cons ⟨a.1, ?_⟩ (ih _ b fun f hf => hall f (List.mem_cons_of_mem _ hf))
        have := a.2
        rw [C32_short_name _ (hall _ (by simp)), R.ok.injEq] at this
        exact this.symm
  refine ⟨st, es, h1, h4, h0, fun e he => ?_, fun query => ?_⟩
  · have : ∀ {fs : List (Option (List Nat) × Short)} {es : List Entry},
        List.Forall₂ (fun f (e : Entry) => e.long = f.1 ∧ e.short = ⟨f.2.display, f.2.attributes, f.2.flags, f.2.cluster, f.2.size⟩) fs es → e ∈ es →
        ∃ f ∈ fs, e.long = f.1 ∧ e.short = ⟨f.2.display, f.2.attributes, f.2.flags, f.2.cluster, f.2.size⟩ := by
      intro fs es h he
      induction h with
      | nil => cases he
      | cons h1 _ ih =>
        rcases List.mem_cons.1 he with rfl | he
        · exact ⟨_, List.mem_cons_self, h1⟩
        · obtain ⟨f, hf, h⟩ := ih he
          exact ⟨f, List.mem_cons_of_mem _ hf, h⟩
    obtain ⟨f, hf, hl, hs⟩ := this h4 he
    obtain ⟨s, hs', hf⟩ := List.mem_flatMap.1 hf
    exact ⟨fileName f, key_eq hfold (hok s hs') hf hl (by rw [hs])⟩
  rw [h3]
  refine find_zip _ _ h4 _ (fun f => decide (folded fold (fileName f) = folded fold query)) ?_
  rintro f e hf ⟨hl, hs⟩
  obtain ⟨s, hs', hf⟩ := List.mem_flatMap.1 hf
  rw [key_eq hfold (hok s hs') hf hl (by rw [hs])]
  rfl

/-- C32: reading a directory with any sequence of files with long and short names and deleted entries yields one entry per file, in order, with the names, cluster
and size it was stored with; looking up a name in any case finds the last file with that name, and nothing if there is none. The table has
to fold the ASCII letters. -/
theorem C32_directory (fold : Nat → Option Nat) (hfold : ∀ u, u < 128 → (fold u).getD u = if 97 ≤ u ∧ u ≤ 122 then u - 32 else u)
    (offset : Nat) (stored : List Stored) (hok : ∀ s ∈ stored, s.Ok) (tail : List Byte)
    (htail : tail = [] ∨ ∃ junk, tail = List.replicate 32 0#8 ++ junk) (ho : offset + (stored.flatMap fun s => s.item.bytes).length < 2 ^ 64) :
    ∃ st es, readData fold offset Keramics.FatDir.init ((stored.flatMap fun s => s.item.bytes) ++ tail) = .ok st ∧
      List.Forall₂ (fun f (e : Entry) => e.long = f.1 ∧ e.short = ⟨f.2.display, f.2.attributes, f.2.flags, f.2.cluster, f.2.size⟩) (stored.flatMap Stored.files) es ∧
      ∀ query, find st (Ucs2.caseFold fold query) =
        (((stored.flatMap Stored.files).zip es).reverse.find? fun p => folded fold (fileName p.1) = folded fold query).map Prod.snd := by
  obtain ⟨st, es, h1, h2, -, -, h3⟩ := directory_entries fold hfold offset stored hok tail htail ho
  exact ⟨st, es, h1, h2, h3⟩

/-- C32, violated for names whose first pieces are missing before the short name entry, which are out of sequence: they are accepted, as
the rest of the name. -/
theorem C32_violated_missing (fold : Nat → Option Nat) (offset : Nat) (checksum : Byte) (name : List Nat)
    (hn : 0 < name.length ∧ name.length ≤ 255 ∧ ∀ u ∈ name, 0 < u ∧ u < 2 ^ 16) (k : Nat) (_hk0 : 0 < k) (hk : 13 * k < name.length) (s : Short) (hs : s.Ok) (ho : offset < 2 ^ 63) :
    ∃ st, readData fold offset Keramics.FatDir.init (longEntries checksum (k + 1) ((pieces name).drop k) ++ s.bytes) = .ok st ∧
      ∃ e, find st (folded fold (name.drop (13 * k))) = some e ∧ e.long = some (name.drop (13 * k)) := by
  obtain ⟨p1, p2, p3, p4⟩ := Keramics.FatDir.pieces_spec name hn.1 hn.2.2
  have hpieces : ∀ (k : Nat) (name : List Nat), 13 * k < name.length → (pieces name).drop k = pieces (name.drop (13 * k)) := by
    intro k
    induction k with
    | zero => intro name _; simp
    | succ k ih =>
      intro name h
      conv_lhs => unfold pieces
      rw [dif_neg (by omega), List.drop_succ_cons, ih _ (by rw [List.length_drop]; omega), List.drop_drop]
      congr 2
      omega
  rw [hpieces k name hk]
  have hd : 0 < (name.drop (13 * k)).length := by rw [List.length_drop]; omega
  obtain ⟨q1, q2, q3, q4⟩ := Keramics.FatDir.pieces_spec (name.drop (13 * k)) hd fun u hu => hn.2.2 u (List.mem_of_mem_drop hu)
  rw [List.length_drop] at q4
  obtain ⟨st1, r1, r2, r3, r4, r5, r6⟩ := Keramics.FatDir.readData_longEntries (fold := fold) checksum (pieces (name.drop (13 * k))) q3 q1 (k + 1) (by omega) (by omega)
    offset Keramics.FatDir.init s.bytes (by omega)
  obtain ⟨t1, s', t2, t3, t4, t5⟩ := file_entry (isFile hs) []
  rw [r1]
  have := Keramics.FatDir.readData_short (fold := fold) (offset := offset + 32 * (pieces (name.drop (13 * k))).length) (st := st1) (rest := []) (bytes_length hs) t1 (by omega)
  rw [List.append_nil] at this
  rw [this]
  have hstep : ∀ offset, Keramics.FatDir.stepShort fold offset st1 s.bytes = .ok (added fold offset st1 s') := by
    intro offset
    unfold Keramics.FatDir.stepShort
    rw [t2, R.ok_bind, if_neg t3, if_neg (by rintro (h | h); exacts [t4 h, t5 h])]
    rfl
  rw [hstep, R.ok_bind, readData_ends (.inl rfl)]
  refine ⟨_, rfl, ⟨(offset + 32 * (pieces (name.drop (13 * k))).length) % 2 ^ 32, s', some (name.drop (13 * k))⟩, ?_, rfl⟩
  have hl : Keramics.FatDir.longName st1.longs = some (name.drop (13 * k)) := by
    unfold Keramics.FatDir.longName
    rw [if_neg r5, r6, q2]
  unfold Keramics.FatDir.find added
  simp only
  rw [hl, find_insert, if_pos (by rfl)]
  rfl

/-- The hypotheses are met: `LongName.txt`, deleted, and `readme.TXT` with a name in lowerCase case. -/
example : (∀ u, u < 128 → ((fun u => if 97 ≤ u ∧ u ≤ 122 then some (u - 32) else none : Nat → Option Nat) u).getD u = if 97 ≤ u ∧ u ≤ 122 then u - 32 else u) ∧
    (⟨[0x52#8, 0x45#8, 0x41#8], [0x54#8], 0x20#8, 0x08#8, List.replicate 13 0#8, 3, 10⟩ : Short).Ok ∧
    (⟨[0x52#8, 0x45#8, 0x41#8], [0x54#8], 0x20#8, 0x08#8, List.replicate 13 0#8, 3, 10⟩ : Short).display = [0x72#8, 0x65#8, 0x61#8, 0x2e#8, 0x54#8] := by
  refine ⟨fun u _ => ?_, by unfold Short.Ok; decide, by decide⟩
  simp only
  split <;> rfl

end Keramics.Props
