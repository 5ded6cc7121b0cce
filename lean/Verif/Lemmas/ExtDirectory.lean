import Verif.Lemmas.ExtFileSystem
import Verif.Props.Streams

/-!
# Lemmas: ext directories, paths and data
-/

namespace Keramics.ExtFs
open Keramics.Spec Keramics.Spec.Ext Keramics.Spec.ExtFs

/-! ## Order of names -/

theorem compareNames_lt (a b : List Byte) : compareNames a b = .lt ↔ a < b := by
  induction a generalizing b with
  | nil => cases b <;> simp [compareNames]
  | cons x a ih =>
    cases b with
    | nil => simp [compareNames]
    | cons y b =>
      rw [List.cons_lt_cons_iff, compareNames, ← ih b]
      by_cases h1 : x < y
      · simp [h1]
      · rw [if_neg h1]
        by_cases h2 : y < x
        · rw [if_pos h2]
          have : x ≠ y := by intro h; subst h; exact absurd h2 h1
          simp [h1, this]
        · rw [if_neg h2]
          have : x = y := by
            rw [BitVec.lt_def] at h1 h2
            exact BitVec.eq_of_toNat_eq (by omega)
          simp [h1, this]

theorem compareNames_gt (a b : List Byte) : compareNames a b = .gt ↔ b < a := by
  induction a generalizing b with
  | nil => cases b <;> simp [compareNames]
  | cons x a ih =>
    cases b with
    | nil => simp [compareNames]
    | cons y b =>
      rw [List.cons_lt_cons_iff, compareNames, ← ih b]
      by_cases h1 : x < y
      · rw [if_pos h1]
        have h2 : ¬ y < x := by rw [BitVec.lt_def] at h1 ⊢; omega
        have : y ≠ x := by intro h; subst h; exact absurd h1 h2
        simp [h2, this]
      · rw [if_neg h1]
        by_cases h2 : y < x
        · simp [h2]
        · rw [if_neg h2]
          have : y = x := by
            rw [BitVec.lt_def] at h1 h2
            exact BitVec.eq_of_toNat_eq (by omega)
          simp [h2, this]

theorem compareNames_eq (a b : List Byte) : compareNames a b = .eq ↔ a = b := by
  induction a generalizing b with
  | nil => cases b <;> simp [compareNames]
  | cons x a ih =>
    cases b with
    | nil => simp [compareNames]
    | cons y b =>
      rw [List.cons.injEq, compareNames, ← ih b]
      by_cases h1 : x < y
      · rw [if_pos h1]
        have : x ≠ y := by intro h; subst h; rw [BitVec.lt_def] at h1; omega
        simp [this]
      · rw [if_neg h1]
        by_cases h2 : y < x
        · rw [if_pos h2]
          have : x ≠ y := by intro h; subst h; exact absurd h2 h1
          simp [this]
        · rw [if_neg h2]
          have : x = y := by
            rw [BitVec.lt_def] at h1 h2
            exact BitVec.eq_of_toNat_eq (by omega)
          simp [this]

theorem find_insert (name key : List Byte) (number : Nat) (l : List (List Byte × Nat)) :
    (insertEntry name number l).find? (·.1 = key) = if name = key then some (name, number) else l.find? (·.1 = key) := by
  induction l with
  | nil => simp [insertEntry, List.find?_cons]; split <;> simp_all
  | cons e l ih =>
    obtain ⟨k, v⟩ := e
    unfold insertEntry
    cases hc : compareNames name k with
    | lt =>
      simp only [List.find?_cons (a := (name, number))]
      by_cases h : name = key <;> simp [h]
    | eq =>
      have := (compareNames_eq _ _).1 hc
      subst this
      simp only [List.find?_cons]
      by_cases h : name = key <;> simp [h]
    | gt =>
      have hne : name ≠ k := by
        intro h
        rw [(compareNames_eq _ _).2 h] at hc; cases hc
      simp only [List.find?_cons (a := (k, v)), ih]
      by_cases h : name = key
      · subst h; simp [Ne.symm hne]
      · simp [h]

/-- The entries are in order. -/
def Sorted (l : List (List Byte × Nat)) : Prop := l.Pairwise (fun a b => a.1 < b.1)

theorem mem_insert {name : List Byte} {number : Nat} {l : List (List Byte × Nat)} {e : List Byte × Nat} (h : e ∈ insertEntry name number l) :
    e = (name, number) ∨ e ∈ l := by
  induction l with
  | nil => simp [insertEntry] at h; exact Or.inl h
  | cons d l ih =>
    obtain ⟨k, v⟩ := d
    unfold insertEntry at h
    cases hc : compareNames name k with
    | lt => rw [hc] at h; simp only [List.mem_cons] at h ⊢; tauto
    | eq => rw [hc] at h; simp only [List.mem_cons] at h ⊢; tauto
    | gt =>
      rw [hc] at h; simp only [List.mem_cons] at h ⊢
      rcases h with h | h
      · exact Or.inr (Or.inl h)
      · rcases ih h with h | h
        · exact Or.inl h
        · exact Or.inr (Or.inr h)

theorem sorted_insert (name : List Byte) (number : Nat) {l : List (List Byte × Nat)} (h : Sorted l) : Sorted (insertEntry name number l) := by
  induction l with
  | nil => simp [insertEntry, Sorted]
  | cons d l ih =>
    obtain ⟨k, v⟩ := d
    unfold Sorted at h
    rw [List.pairwise_cons] at h
    obtain ⟨h1, h2⟩ := h
    unfold insertEntry
    cases hc : compareNames name k with
    | lt =>
      have hc := (compareNames_lt _ _).1 hc
      unfold Sorted
      rw [List.pairwise_cons, List.pairwise_cons]
      refine ⟨?_, h1, h2⟩
      intro e he
      rcases List.mem_cons.1 he with rfl | he
      · exact hc
      · exact List.lt_trans hc (h1 e he)
    | eq =>
      have hc := (compareNames_eq _ _).1 hc
      subst hc
      unfold Sorted
      rw [List.pairwise_cons]
      exact ⟨h1, h2⟩
    | gt =>
      have hc := (compareNames_gt _ _).1 hc
      unfold Sorted
      rw [List.pairwise_cons]
      refine ⟨?_, ih h2⟩
      intro e he
      rcases mem_insert he with rfl | he
      · exact hc
      · exact h1 e he

/-- What is kept of an entry. -/
def keep (l : List (List Byte × Nat)) (r : Record) : List (List Byte × Nat) := keepEntry r.inode (text r.name) l

theorem sorted_keep {l : List (List Byte × Nat)} (h : Sorted l) (rs : List Record) : Sorted (rs.foldl keep l) := by
  induction rs generalizing l with
  | nil => exact h
  | cons r rs ih =>
    rw [List.foldl_cons]
    apply ih
    unfold keep keepEntry
    split
    · exact h
    · split
      · exact h
      · exact sorted_insert _ _ h

theorem text_name {name : List Byte} (h : 0#8 ∉ name) : text name = name := by
  unfold text
  induction name with
  | nil => rfl
  | cons x l ih =>
    have hx : x ≠ 0#8 := fun h' => h (by rw [h']; exact List.mem_cons_self)
    rw [List.takeWhile_cons, decide_eq_true hx, if_pos rfl, ih (fun h' => h (List.mem_cons_of_mem _ h'))]

theorem find_keep {rs : List Record} (hok : ∀ r ∈ rs, r.Ok) (name : List Byte) :
    (rs.foldl keep []).find? (·.1 = name) = (lookup rs name).map fun n => (name, n) := by
  induction hr : rs.reverse generalizing rs with
  | nil =>
    have : rs = [] := List.reverse_eq_nil_iff.1 hr
    subst this; rfl
  | cons r qs ih =>
    have hrs : rs = qs.reverse ++ [r] := by rw [← List.reverse_reverse rs, hr, List.reverse_cons]
    have ih := ih (rs := qs.reverse) (fun q hq => hok q (by rw [hrs]; simp [List.mem_reverse.1 hq])) (List.reverse_reverse _)
    have hro : r.Ok := hok r (by rw [hrs]; simp)
    rw [hrs, List.foldl_append, List.foldl_cons, List.foldl_nil]
    have hl : lookup (qs.reverse ++ [r]) name = if r.inode ≠ 0 ∧ r.name = name ∧ name ≠ [0x2e#8] ∧ name ≠ [0x2e#8, 0x2e#8] then some r.inode else lookup qs.reverse name := by
      unfold lookup
      rw [List.reverse_append, List.reverse_singleton, List.singleton_append, List.find?_cons]
      by_cases hp : r.inode ≠ 0 ∧ r.name = name ∧ name ≠ [0x2e#8] ∧ name ≠ [0x2e#8, 0x2e#8]
      · rw [if_pos hp, decide_eq_true hp]; rfl
      · rw [if_neg hp, decide_eq_false hp]
    rw [hl]
    unfold keep keepEntry
    by_cases h0 : r.inode = 0
    · rw [if_pos h0, if_neg (fun h => h.1 h0)]; exact ih
    · have ht := text_name (hro.2.2.2.2 h0)
      rw [if_neg h0, ht]
      by_cases hd : r.name = [0x2e#8] ∨ r.name = [0x2e#8, 0x2e#8]
      · rw [if_pos hd, if_neg (by rintro ⟨-, rfl, h1, h2⟩; exact hd.elim h1 h2)]; exact ih
      · rw [if_neg hd, find_insert]
        by_cases hn : r.name = name
        · subst hn
          rw [if_pos rfl, if_pos ⟨h0, rfl, fun h => hd (Or.inl h), fun h => hd (Or.inr h)⟩]; rfl
        · rw [if_neg hn, if_neg (fun h => hn h.2.1)]; exact ih

theorem sorted_find {l : List (List Byte × Nat)} (h : Sorted l) {name : List Byte} {n : Nat} : (name, n) ∈ l ↔ l.find? (·.1 = name) = some (name, n) := by
  constructor
  · intro hm
    induction l with
    | nil => cases hm
    | cons e l ih =>
      unfold Sorted at h
      rw [List.pairwise_cons] at h
      rw [List.find?_cons]
      rcases List.mem_cons.1 hm with rfl | hm
      · simp
      · have := h.1 _ hm
        have hne : e.1 ≠ name := fun he => by rw [he] at this; exact List.lt_irrefl _ this
        rw [decide_eq_false hne]
        exact ih h.2 hm
  · exact List.mem_of_find?_eq_some

/-! ## Entries -/

theorem record_length {r : Record} : r.bytes.length = 8 + r.name.length + r.padding.length := by
  unfold Record.bytes; simp only [List.length_append, leBytes_length]

theorem readEntry_ok {r : Record} (h : r.Ok) (rest : List Byte) :
    readEntry (r.bytes ++ rest) = .ok (some (r.inode, 8 + r.name.length + r.padding.length, text r.name)) := by
  obtain ⟨h1, h2, h3, h4, -⟩ := h
  have hlen : (r.bytes ++ rest).length = 8 + r.name.length + r.padding.length + rest.length := by rw [List.length_append, record_length]
  obtain ⟨b, hb, hbn⟩ := get_field (data := r.bytes ++ rest) (off := 6) (by omega)
  unfold readEntry
  rw [R.require_true (by omega), R.ok_bind, u32_ok (by omega), R.ok_bind, u16_ok (by omega), R.ok_bind, hb, R.ok_bind]
  have e0 : field (r.bytes ++ rest) 0 4 = r.inode := by
    unfold field Record.bytes
    rw [List.drop_zero]; simp only [List.append_assoc]
    rw [List.take_left' (leBytes_length _ _), leNat_leBytes, Nat.mod_eq_of_lt (by omega)]
  have e4 : field (r.bytes ++ rest) 4 2 = 8 + r.name.length + r.padding.length := by
    unfold field Record.bytes
    simp only [List.append_assoc]
    rw [List.drop_left' (leBytes_length _ _), List.take_left' (leBytes_length _ _), leNat_leBytes, Nat.mod_eq_of_lt (by omega)]
  have e6 : field (r.bytes ++ rest) 6 1 = r.name.length := by
    unfold field Record.bytes
    rw [show leBytes 4 r.inode ++ leBytes 2 (8 + r.name.length + r.padding.length) ++ leBytes 1 r.name.length ++ leBytes 1 r.kind ++ r.name ++ r.padding ++ rest =
      (leBytes 4 r.inode ++ leBytes 2 (8 + r.name.length + r.padding.length)) ++ (leBytes 1 r.name.length ++ (leBytes 1 r.kind ++ r.name ++ r.padding ++ rest)) by
        simp only [List.append_assoc]]
    rw [List.drop_left' (by simp only [List.length_append, leBytes_length]), List.take_left' (leBytes_length _ _), leNat_leBytes, Nat.mod_eq_of_lt (by omega)]
  have e8 : (r.bytes ++ rest).drop 8 = r.name ++ (r.padding ++ rest) := by
    unfold Record.bytes
    rw [show leBytes 4 r.inode ++ leBytes 2 (8 + r.name.length + r.padding.length) ++ leBytes 1 r.name.length ++ leBytes 1 r.kind ++ r.name ++ r.padding ++ rest =
      (leBytes 4 r.inode ++ leBytes 2 (8 + r.name.length + r.padding.length) ++ leBytes 1 r.name.length ++ leBytes 1 r.kind) ++ (r.name ++ (r.padding ++ rest)) by
        simp only [List.append_assoc]]
    rw [List.drop_left' (by simp only [List.length_append, leBytes_length])]
  rw [e0, e4, if_neg (by omega), R.require_true (by omega), R.ok_bind]
  unfold readName
  rw [hbn, e6]
  rw [R.require_true (by rw [List.length_drop]; omega), R.ok_bind, e8, List.take_left' rfl, elements_text]
  rfl

theorem nodeLoop_ok {rs : List Record} (hok : ∀ r ∈ rs, r.Ok) (entries : List (List Byte × Nat)) {fuel : Nat} (hf : (rs.flatMap Record.bytes).length < fuel) :
    nodeLoop fuel (rs.flatMap Record.bytes) entries = .ok (rs.foldl keep entries) := by
  induction rs generalizing fuel entries with
  | nil =>
    obtain ⟨fuel, rfl⟩ : ∃ k, fuel = k + 1 := ⟨fuel - 1, by simp at hf; omega⟩
    unfold nodeLoop; rfl
  | cons r rs ih =>
    rw [List.flatMap_cons] at hf ⊢
    rw [List.length_append, record_length] at hf
    obtain ⟨fuel, rfl⟩ : ∃ k, fuel = k + 1 := ⟨fuel - 1, by omega⟩
    unfold nodeLoop
    rw [if_neg (by rw [List.length_append, record_length]; omega), readEntry_ok (hok r List.mem_cons_self), R.ok_bind]
    simp only
    rw [List.drop_left' record_length, ih (fun q hq => hok q (List.mem_cons_of_mem _ hq)) _ (by omega)]
    rfl

theorem readNode_ok {data : List Byte} {rs : List Record} (h : Lists data rs) (entries : List (List Byte × Nat)) :
    readNode data entries = .ok (rs.foldl keep entries) := by
  obtain ⟨h1, rfl⟩ := h
  exact nodeLoop_ok h1 entries (Nat.lt_succ_self _)

/-- Blocks with lists of entries. -/
def BlocksOk (U : List Byte) (bs : Nat) (ps : List Nat) (lists : List (List Record)) : Prop :=
  List.Forall₂ (fun p l => (p + 1) * bs ≤ U.length ∧ Lists (block U bs p) l) ps lists

theorem rangeLoop_ok {U : List Byte} {bs : Nat} (hU : U.length < 2 ^ 63) {p n : Nat} {lists : List (List Record)}
    (h : BlocksOk U bs ((List.range n).map (p + ·)) lists) (entries : List (List Byte × Nat)) :
    rangeLoop U bs n (p * bs) entries = .ok (lists.flatten.foldl keep entries) := by
  induction n generalizing p lists entries with
  | zero =>
    cases h; rfl
  | succ n ih =>
    rw [List.range_succ_eq_map, List.map_cons, List.map_map] at h
    cases h with
    | cons h1 h2 =>
      rename_i l ls
      rw [Nat.add_zero] at h1
      obtain ⟨h1, h3⟩ := h1
      rw [Nat.add_zero] at h3
      rw [Nat.succ_mul] at h1
      unfold rangeLoop
      rw [readExactAt_ok h1, R.ok_bind, show (U.drop (p * bs)).take bs = block U bs p from rfl, readNode_ok h3, R.ok_bind, R.addU_ok (by omega), R.ok_bind,
        ← Nat.succ_mul]
      rw [ih (p := p + 1) (lists := ls) (by
        have : ((fun x => p + x) ∘ Nat.succ) = fun x => p + 1 + x := by funext x; simp only [Function.comp_apply]; omega
        rw [this] at h2; exact h2)]
      rw [List.flatten_cons, List.foldl_append]

theorem cover1_stored {r : Ext.Range} (h : r.sparse = false) : Ext.cover1 r = ((List.range r.count).map (r.physical + ·)).map some := by
  unfold Ext.cover1; rw [h, List.map_map]; rfl

theorem readRanges_ok {U : List Byte} {bs : Nat} (hU : U.length < 2 ^ 63) {rs : List Ext.Range} (hpos : ∀ r ∈ rs, 0 < r.count) {ps : List Nat} {k : Nat}
    (hc : Ext.cover rs = ps.map some ++ List.replicate k none) {lists : List (List Record)} (h : BlocksOk U bs ps lists) (entries : List (List Byte × Nat)) :
    readRanges U bs rs entries = .ok (lists.flatten.foldl keep entries) := by
  induction rs generalizing ps lists entries with
  | nil =>
    have : ps = [] := by
      have := congrArg List.length hc
      simp [Ext.cover] at this
      exact List.eq_nil_of_length_eq_zero (by omega)
    subst this
    cases h; rfl
  | cons r rs ih =>
    have hr := hpos r List.mem_cons_self
    rw [Ext.cover, List.flatMap_cons, ← Ext.cover] at hc
    unfold readRanges
    by_cases hs : r.sparse = true
    · rw [if_pos hs]
      have : ps = [] := by
        cases ps with
        | nil => rfl
        | cons p ps =>
          exfalso
          obtain ⟨m, hm⟩ : ∃ m, r.count = m + 1 := ⟨r.count - 1, by omega⟩
          unfold Ext.cover1 at hc
          rw [hs, hm, List.range_succ_eq_map] at hc
          simp at hc
      subst this
      cases h; rfl
    · have hs : r.sparse = false := by simpa using hs
      rw [hs, if_neg (by simp)]
      rw [cover1_stored hs] at hc
      have hle : r.count ≤ ps.length := by
        by_contra hcon
        have hx := congrArg (fun l => l[ps.length]?) hc
        rw [List.getElem?_append_left (by simp; omega), List.getElem?_append_right (by simp)] at hx
        rw [List.getElem?_map, List.getElem?_map, List.getElem?_range (by omega), List.length_map, Nat.sub_self] at hx
        cases k <;> simp [List.replicate_succ] at hx
      have htake : (List.range r.count).map (r.physical + ·) = ps.take r.count ∧ Ext.cover rs = (ps.drop r.count).map some ++ List.replicate k none := by
        rw [← List.take_append_drop r.count ps, List.map_append, List.append_assoc] at hc
        obtain ⟨e1, e2⟩ := List.append_inj hc (by simp; omega)
        exact ⟨(List.map_injective_iff.2 (Option.some_injective _)) e1, e2⟩
      have hB : ∃ l1 l2, lists = l1 ++ l2 ∧ BlocksOk U bs (ps.take r.count) l1 ∧ BlocksOk U bs (ps.drop r.count) l2 :=
        ⟨lists.take r.count, lists.drop r.count, (List.take_append_drop _ _).symm, List.forall₂_take _ h, List.forall₂_drop _ h⟩
      obtain ⟨l1, l2, rfl, b1, b2⟩ := hB
      rw [← htake.1] at b1
      have hphys : r.physical * bs < 2 ^ 64 := by
        obtain ⟨m, hm⟩ : ∃ m, r.count = m + 1 := ⟨r.count - 1, by omega⟩
        rw [hm, List.range_succ_eq_map, List.map_cons] at b1
        cases b1 with
        | cons b1 _ =>
          have := b1.1
          rw [Nat.add_zero, Nat.succ_mul] at this
          omega
      rw [R.mulU_ok hphys, R.ok_bind, rangeLoop_ok hU b1, R.ok_bind, ih (fun q hq => hpos q (List.mem_cons_of_mem _ hq)) htake.2 b2,
        List.flatten_append, List.foldl_append]

/-! ## File entries -/

/-- A file entry is that of inode `n`. -/
structure EntryOk (U : List Byte) (fs : Fs) (n : Nat) (l : List Attribute) (name : Option (List Byte)) (e : Entry) : Prop where
  number : e.number = n
  name : e.name = name
  read : getInode U fs n = .ok (e.inode, e.ranges)
  inode : InodeOk U (inode U n) l e.inode
  bound : blocksUsed U e.inode * blockSize U < 2 ^ 63
  least : dataBlocks U (Spec.ExtFs.inode U n) ≤ blocksUsed U e.inode
  ranges : kind (Spec.ExtFs.inode U n) ≠ 2 → kind (Spec.ExtFs.inode U n) ≠ 6 → RangesOk U (Spec.ExtFs.inode U n) (blocksUsed U e.inode) e.ranges

theorem ofEntry_ok {U : List Byte} (h : Valid U) (hh : Handled U) (hU : U.length < 2 ^ 63) {fs : Fs} (hfs : FsOk U fs) {n : Nat} {l : List Attribute} (hf : File U n)
    (hfh : FileHandled U n l) (name : List Byte) : ∃ e, ofEntry U fs (name, n) = .ok e ∧ EntryOk U fs n l (some name) e := by
  obtain ⟨i, ranges, e1, e2, e3, e4, e5⟩ := getInode_ok h hh hU hfs hf hfh
  refine ⟨⟨n, i, ranges, some name⟩, ?_, rfl, rfl, e1, e2, e3, e4, e5⟩
  unfold ofEntry
  rw [e1, R.ok_bind]; rfl

theorem byIdentifier_ok {U : List Byte} (h : Valid U) (hh : Handled U) (hU : U.length < 2 ^ 63) {fs : Fs} (hfs : FsOk U fs) {n : Nat} {l : List Attribute} (hf : File U n)
    (hfh : FileHandled U n l) : ∃ e, byIdentifier U fs n = .ok e ∧ EntryOk U fs n l none e := by
  obtain ⟨i, ranges, e1, e2, e3, e4, e5⟩ := getInode_ok h hh hU hfs hf hfh
  refine ⟨⟨n, i, ranges, none⟩, ?_, rfl, rfl, e1, e2, e3, e4, e5⟩
  unfold byIdentifier
  rw [hfs.super, R.require_true (unsupported_ok hh), R.ok_bind]
  rw [R.require_true (by
    have := hf.first
    have := hf.last
    show ¬ (n = 0 ∨ inodes U < n)
    omega), R.ok_bind, e1, R.ok_bind]
  rfl

theorem flag28 (d : List Byte) : field d 32 4 &&& 0x10000000 ≠ 0 ↔ flag d 28 = true := bit 28 _ rfl

theorem isDirectory_ok {U : List Byte} {fs : Fs} {n : Nat} {l : List Attribute} {name : Option (List Byte)} {e : Entry} (he : EntryOk U fs n l name e) :
    isDirectory e = true ↔ kind (inode U n) = 4 := by
  unfold isDirectory
  rw [he.inode.mode, decide_eq_true_eq]
  exact mode_kind 4

theorem subEntries_ok {U : List Byte} (hU : U.length < 2 ^ 63) {fs : Fs} (hfs : FsOk U fs) {n : Nat} {l : List Attribute} {name : Option (List Byte)} {e : Entry}
    (hlen : 128 ≤ (inode U n).length)
    (he : EntryOk U fs n l name e) {records : List Record} (hd : Directory U (inode U n) records) : subEntries U fs e = .ok (records.foldl keep []) := by
  obtain ⟨hk, hd⟩ := hd
  unfold subEntries
  rw [if_pos ((isDirectory_ok he).2 hk)]
  unfold readDirectory
  rw [he.inode.flags, he.inode.reference]
  rcases hd with ⟨hf, hl⟩ | ⟨hf, map, hm, hnone, lists, rfl, hlen', hlists⟩
  · rw [if_pos ((flag28 _).2 hf), u32_ok (by rw [reference_length hlen]; omega), R.ok_bind]
    exact readNode_ok hl []
  · rw [if_neg (fun hc => by rw [(flag28 _).1 hc] at hf; cases hf), hfs.super]
    obtain ⟨c1, c2⟩ := he.ranges (by omega) (by omega) map hm
    have hpos : ∀ {a b : Nat} {rs : List Ext.Range}, Ext.Chain a rs b → ∀ r ∈ rs, 0 < r.count := by
      intro a b rs h
      induction rs generalizing a with
      | nil => simp
      | cons r rs ih =>
        intro q hq
        rcases List.mem_cons.1 hq with rfl | hq
        · exact h.2.1
        · exact ih h.2.2 q hq
    refine readRanges_ok hU (hpos c1) (ps := (List.range lists.length).map fun b => (map b).getD 0) (k := blocksUsed U e.inode - lists.length) ?_ ?_ []
    · have hB := he.least
      rw [← hlen'] at hB
      rw [c2, show blocksUsed U e.inode = lists.length + (blocksUsed U e.inode - lists.length) by omega, Ext.map_range_add,
        Ext.map_range_none (fun i => map (lists.length + i)) _ (fun i _ => hnone _ (by omega)), List.map_map]
      congr 1
      · apply List.map_congr_left
        intro b hb
        obtain ⟨p, hp, -⟩ := hlists b (List.mem_range.1 hb)
        simp [hp]
      · congr 1; omega
    · unfold BlocksOk
      rw [List.forall₂_iff_get]
      refine ⟨by simp, ?_⟩
      intro b h1 h2
      obtain ⟨p, hp, hl⟩ := hlists b h2
      simp only [List.get_eq_getElem, List.getElem_map, List.getElem_range, hp, Option.getD_some]
      exact ⟨maps_inside hm b p hp, hl⟩

theorem subEntries_other {U : List Byte} {fs : Fs} {n : Nat} {l : List Attribute} {name : Option (List Byte)} {e : Entry} (he : EntryOk U fs n l name e)
    (hk : kind (inode U n) ≠ 4) : subEntries U fs e = .ok [] := by
  unfold subEntries
  rw [if_neg (fun hc => hk ((isDirectory_ok he).1 hc))]

theorem directory_ok {U d : List Byte} {records : List Record} (h : Directory U d records) : ∀ r ∈ records, r.Ok := by
  rcases h.2 with ⟨-, hl⟩ | ⟨-, map, -, -, lists, rfl, -, hlists⟩
  · exact hl.1
  · intro r hr
    obtain ⟨l, hl, hr⟩ := List.mem_flatten.1 hr
    obtain ⟨b, hb, rfl⟩ := List.getElem_of_mem hl
    obtain ⟨p, -, hl⟩ := hlists b hb
    exact hl.1 r hr

theorem file_length {U : List Byte} (h : Valid U) {n : Nat} (hf : File U n) : 128 ≤ (inode U n).length := by
  rw [inode_length h hf.first hf.last]
  have := inodeSize_bounds h
  omega

theorem walk_ok {U : List Byte} (h : Valid U) (hh : Handled U) (hU : U.length < 2 ^ 63) {fs : Fs} (hfs : FsOk U fs) {n : Nat} {names : List (List Byte)} {r : Option Nat}
    (hp : Path U (Readable U) n names r) {l : List Attribute} {name : Option (List Byte)} {e : Entry} (he : EntryOk U fs n l name e) :
    match r with
    | none => walk U fs e names = .ok none
    | some m => ∃ e' l', walk U fs e names = .ok (some e') ∧ EntryOk U fs m l' (if names = [] then name else names.getLast?) e' := by
  induction hp generalizing l name e with
  | here hF => exact ⟨e, l, rfl, he⟩
  | file hF hk =>
    show walk U fs e (_ :: _) = .ok none
    unfold walk subByName
    rw [subEntries_other he hk]
    rfl
  | missing hF hd hl =>
    rename_i n nm rest records
    show walk U fs e (_ :: _) = .ok none
    unfold walk subByName
    rw [subEntries_ok hU hfs (file_length h hF.1) he hd, R.ok_bind, find_keep (directory_ok hd), hl]
    rfl
  | step hF hd hl hrest ih =>
    rename_i n nm rest records m r
    have hm : Readable U m := by cases hrest <;> assumption
    obtain ⟨hf, l', hfh⟩ := hm
    obtain ⟨e', e1, e2⟩ := ofEntry_ok h hh hU hfs hf hfh nm
    have hw : walk U fs e (nm :: rest) = walk U fs e' rest := by
      conv_lhs => unfold walk subByName
      rw [subEntries_ok hU hfs (file_length h hF.1) he hd, R.ok_bind, find_keep (directory_ok hd), hl]
      show (do
        let x ← ofLookup U fs (some (nm, m))
        match x with
        | some e' => walk U fs e' rest
        | none => return none) = _
      unfold ofLookup
      show (do
        let x ← (do return some (← ofEntry U fs (nm, m)) : R (Option Entry))
        match x with
        | some e' => walk U fs e' rest
        | none => return none) = _
      rw [e1]
      rfl
    rw [hw]
    have ih := ih e2
    cases r with
    | none => exact ih
    | some k =>
      obtain ⟨e3, l3, w1, w2⟩ := ih
      refine ⟨e3, l3, w1, ?_⟩
      rw [if_neg (by simp)]
      by_cases hr : rest = []
      · subst hr; exact w2
      · rw [if_neg hr] at w2
        obtain ⟨a, b, hab⟩ := List.exists_cons_of_ne_nil hr
        rw [List.getLast?_cons, hab]
        rw [hab] at w2
        simpa [List.getLast?_cons] using w2

/-! ## Data -/

theorem mapped_length {U : List Byte} {bs : Nat} {map : Nat → Option Nat} (hin : ∀ b p, map b = some p → (p + 1) * bs ≤ U.length) (D : Nat) :
    ((List.range D).flatMap fun b => Ext.mapped U bs (map b)).length = D * bs := by
  induction D with
  | zero => simp
  | succ D ih =>
    rw [List.range_succ, List.flatMap_append, List.length_append, ih, List.flatMap_singleton, Nat.succ_mul]
    congr 1
    cases hm : map D with
    | none => simp [Ext.mapped]
    | some p =>
      have := hin D p hm
      rw [Nat.succ_mul] at this
      simp only [Ext.mapped, block, List.length_take, List.length_drop]; omega

theorem contents_mapped {U : List Byte} {bs : Nat} {map : Nat → Option Nat} {D size : Nat} :
    contents U bs map D size = ((List.range D).flatMap fun b => Ext.mapped U bs (map b)).take size := by
  unfold contents
  congr 2

theorem contents_length {U : List Byte} {bs : Nat} {map : Nat → Option Nat} (hin : ∀ b p, map b = some p → (p + 1) * bs ≤ U.length) {D size : Nat}
    (hs : size ≤ D * bs) : (contents U bs map D size).length = size := by
  rw [contents_mapped, List.length_take, mapped_length hin, Nat.min_eq_left hs]

theorem contents_more {U : List Byte} {bs : Nat} {map : Nat → Option Nat} (hin : ∀ b p, map b = some p → (p + 1) * bs ≤ U.length) {D B size : Nat} (hD : D ≤ B)
    (hs : size ≤ D * bs) : contents U bs map B size = contents U bs map D size := by
  rw [contents_mapped, contents_mapped]
  obtain ⟨k, rfl⟩ : ∃ k, B = D + k := ⟨B - D, by omega⟩
  rw [List.range_add, List.flatMap_append, List.take_append_of_le_length (by rw [mapped_length hin]; exact hs)]

theorem size_blocks {U d : List Byte} (h : Valid U) : dataSize d ≤ dataBlocks U d * blockSize U := by
  have hb := blockSize_bounds h
  unfold dataBlocks
  have := Nat.div_add_mod (dataSize d + blockSize U - 1) (blockSize U)
  have := Nat.mod_lt (dataSize d + blockSize U - 1) (show 0 < blockSize U by omega)
  rw [Nat.mul_comm]
  omega

theorem blocksOf_ok {U : List Byte} (h : Valid U) {fs : Fs} (hfs : FsOk U fs) (i : Inode) : blocksOf fs.super.blockSize i = .ok (blocksUsed U i) := by
  have hb := blockSize_bounds h
  rw [hfs.super]
  show blocksOf (blockSize U) i = _
  unfold blocksOf blocksUsed
  rw [R.check_true (by omega), R.ok_bind]; rfl

/-- The stream of the blocks of a file. -/
theorem blocks_trace {U : List Byte} (h : Valid U) (hU : U.length < 2 ^ 63) {fs : Fs} {n : Nat} {l : List Attribute} {name : Option (List Byte)} {e : Entry}
    (he : EntryOk U fs n l name e) (h2 : kind (inode U n) ≠ 2) (h6 : kind (inode U n) ≠ 6) {map : Nat → Option Nat} (hm : Maps U (inode U n) map)
    (ops : List StreamOp) (hf : dataSize (inode U n) + seekBudget ops < 2 ^ 63) :
    ∃ tree tr, Ext.openTree (blockSize U) (blocksUsed U e.inode) e.ranges = .ok tree ∧
      Stream.run (Ext.stream U (blockSize U) tree e.inode.size) ⟨(), 0⟩ ops = .ok tr ∧ tr.map Prod.fst = ops ∧
      Trace true (contents U (blockSize U) map (dataBlocks U (inode U n)) (dataSize (inode U n))) (dataSize (inode U n)) 0 tr := by
  have hb := blockSize_bounds h
  obtain ⟨c1, c2⟩ := he.ranges h2 h6 map hm
  have hs := size_blocks (U := U) (d := inode U n) h
  have hle := Nat.mul_le_mul_right (blockSize U) he.least
  obtain ⟨tree, tr, e1, e2, e3, e4⟩ := Ext.stream_trace (U := U) (bs := blockSize U) (blocks := blocksUsed U e.inode) (size := dataSize (inode U n)) (by omega) c1 c2
    (fun b p _ => maps_inside hm b p) (by omega) he.bound (by omega) ops hf
  refine ⟨tree, tr, e1, by rw [he.inode.size]; exact e2, e3, ?_⟩
  rw [contents_more (maps_inside hm) he.least hs] at e4
  exact e4

theorem dataStream_ok {U : List Byte} (h : Valid U) (hU : U.length < 2 ^ 63) {fs : Fs} (hfs : FsOk U fs) {n : Nat} {l : List Attribute} {name : Option (List Byte)} {e : Entry}
    (hlen : 128 ≤ (inode U n).length) (he : EntryOk U fs n l name e) (hk : kind (inode U n) = 8) {c : List Byte} (hc : Contents U (inode U n) c) (ops : List StreamOp)
    (hf : dataSize (inode U n) + seekBudget ops < 2 ^ 63) :
    ∃ s tr, dataStream fs e = .ok (some s) ∧ Stream.run (s.reader U (blockSize U)) ⟨(), 0⟩ ops = .ok tr ∧ tr.map Prod.fst = ops ∧
      Trace true c (dataSize (inode U n)) 0 tr := by
  have hmode : ¬ (e.inode.mode &&& 0xf000 ≠ 0x8000) := by
    rw [he.inode.mode, not_not]; exact (mode_kind 8).2 hk
  unfold dataStream
  rw [if_neg hmode, he.inode.flags]
  cases hc with
  | short hs hsz =>
    have h28 : flag (inode U n) 28 = true := by
      rcases hs.2 with h | h
      · exact h
      · omega
    rw [if_pos ((flag28 _).2 h28)]
    obtain ⟨tr, t1, t2, t3⟩ := Props.C08_fake_stream_partial (reference (inode U n)) (dataSize (inode U n)) (by rw [reference_length hlen]; exact hsz) ops hf
    refine ⟨_, tr, rfl, by rw [he.inode.reference, he.inode.size]; exact t1, t2, ?_⟩
    have : Props.zeroExtended (reference (inode U n)) (dataSize (inode U n)) = (reference (inode U n)).take (dataSize (inode U n)) := by
      unfold Props.zeroExtended
      rw [reference_length hlen, Nat.sub_eq_zero_of_le hsz]; simp
    rw [this] at t3
    exact t3
  | mapped hs h28 hm =>
    rw [if_neg (fun hc => by rw [(flag28 _).1 hc] at h28; cases h28), blocksOf_ok h hfs, R.ok_bind, hfs.super]
    obtain ⟨tree, tr, e1, e2, e3, e4⟩ := blocks_trace h hU he (by omega) (by omega) hm ops hf
    refine ⟨.blocks tree e.inode.size, tr, ?_, e2, e3, e4⟩
    show (do
      let tree ← Ext.openTree (blockSize U) (blocksUsed U e.inode) e.ranges
      return some (Data.blocks tree e.inode.size)) = _
    rw [e1]; rfl

theorem text_take {data : List Byte} {k : Nat} (h1 : 0#8 ∉ data.take k) (h2 : (data.drop k).head? = some 0#8) : text data = data.take k := by
  have hd : ∃ rest, data.drop k = 0#8 :: rest := by
    cases hd : data.drop k with
    | nil => rw [hd] at h2; cases h2
    | cons x rest => rw [hd] at h2; simp at h2; exact ⟨rest, by rw [h2]⟩
  obtain ⟨rest, hd⟩ := hd
  generalize hA : data.take k = A at h1
  have : data = A ++ 0#8 :: rest := by rw [← hd, ← hA, List.take_append_drop]
  rw [this]
  clear hd hA this h2
  unfold text
  induction A with
  | nil => simp
  | cons x A ih =>
    have hx : x ≠ 0#8 := fun h' => h1 (by rw [h']; exact List.mem_cons_self)
    rw [List.cons_append, List.takeWhile_cons, decide_eq_true hx, if_pos rfl, ih (fun h' => h1 (List.mem_cons_of_mem _ h'))]

theorem linkTarget_ok {U : List Byte} (h : Valid U) (hU : U.length < 2 ^ 63) {fs : Fs} (hfs : FsOk U fs) {n : Nat} {l : List Attribute} {name : Option (List Byte)} {e : Entry}
    (he : EntryOk U fs n l name e) (hk : kind (inode U n) = 10) {c : List Byte} (hc : Contents U (inode U n) c)
    (hz : 0#8 ∉ c) (hsz : dataSize (inode U n) ≤ blockSize U)
    (hshort : Short (inode U n) → dataSize (inode U n) < 60 ∧ ((reference (inode U n)).drop (dataSize (inode U n))).head? = some 0#8)
    (hlong : ¬ Short (inode U n) → 60 ≤ dataSize (inode U n)) : linkTarget U fs e = .ok (some c) := by
  have hmode : e.inode.mode &&& 0xf000 = 0xa000 := by rw [he.inode.mode]; exact (mode_kind 10).2 hk
  have hb := blockSize_bounds h
  unfold linkTarget
  rw [if_pos hmode, R.require_true (by rw [he.inode.size, hfs.super]; exact hsz), R.ok_bind]
  unfold targetData
  cases hc with
  | short hs _ =>
    obtain ⟨s1, s2⟩ := hshort hs
    rw [he.inode.size, if_pos s1, R.ok_bind, he.inode.reference, elements_text, text_take hz s2]; rfl
  | @mapped map hs h28 hm =>
    have hl := hlong hs
    rw [he.inode.size, if_neg (by omega)]
    obtain ⟨tree, tr, e1, e2, e3, e4⟩ := blocks_trace h hU he (by omega) (by omega) hm [.read (dataSize (inode U n))] (by simp only [seekBudget]; omega)
    unfold blockTarget
    rw [blocksOf_ok h hfs, R.ok_bind, hfs.super]
    generalize hcc : contents U (blockSize U) map (dataBlocks U (inode U n)) (dataSize (inode U n)) = c at e4 hz ⊢
    have hcl : c.length = dataSize (inode U n) := by
      rw [← hcc]; exact contents_length (maps_inside hm) (size_blocks h)
    show (do
      let a ← (do
        let tree ← Ext.openTree (blockSize U) (blocksUsed U e.inode) e.ranges
        let r ← Stream.read (Ext.stream U (blockSize U) tree e.inode.size) ⟨(), 0⟩ e.inode.size
        R.require (r.1.length = e.inode.size)
        return r.1 : R (List Byte))
      return some (ByteString.elements a)) = _
    rw [e1, R.ok_bind]
    rw [he.inode.size] at e2 ⊢
    cases hr : Stream.read (Ext.stream U (blockSize U) tree (dataSize (inode U n))) ⟨(), 0⟩ (dataSize (inode U n)) with
    | err => simp [Stream.run, Stream.step, hr] at e2
    | panic => simp [Stream.run, Stream.step, hr] at e2
    | ok r =>
      have htr : tr = [(.read (dataSize (inode U n)), .bytes r.1)] := by
        simp [Stream.run, Stream.step, hr] at e2; exact e2.symm
      subst htr
      cases e4 with
      | read hro _ =>
        unfold readOk at hro
        rw [if_pos ⟨Int.le_refl _, by omega⟩] at hro
        have hro := hro.2.2 rfl
        rw [show (0 : Int).toNat = 0 from rfl, List.drop_zero, List.take_of_length_le (by omega)] at hro
        rw [R.ok_bind, R.require_true (by rw [hro]; exact hcl), R.ok_bind]
        show R.ok (some (ByteString.elements r.1)) = _
        rw [hro, elements_text, text_name hz]

end Keramics.ExtFs
