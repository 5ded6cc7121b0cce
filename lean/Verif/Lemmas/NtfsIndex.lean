import Verif.Lemmas.NtfsFiles
import Verif.Model.NtfsIndex

/-!
# Directory indexes
-/

namespace Keramics.NtfsFs
open Keramics.Spec Keramics.Spec.Ntfs Keramics.Spec.NtfsFs Keramics.BlockTree
open Keramics.Ntfs (DataRun Range runLen runRange kept)

/-! ## Order -/

theorem lexLt_iff (a b : List Nat) : Props.LexLt a b ↔ a < b := by
  induction a generalizing b with
  | nil =>
    cases b with
    | nil => exact ⟨nofun, fun h => absurd h (List.lt_irrefl _)⟩
    | cons b bs => exact ⟨fun _ => List.nil_lt_cons b bs, fun _ => .nil⟩
  | cons a as ih =>
    cases b with
    | nil => exact ⟨nofun, fun h => absurd h (List.not_lt_nil _)⟩
    | cons b bs =>
      rw [List.cons_lt_cons_iff, ← ih]
      constructor
      · rintro (h | h | h)
        · exact .inl ‹_›
        · exact .inr ⟨rfl, ‹_›⟩
      · rintro (h | ⟨rfl, h⟩)
        · exact .head h
        · exact .tail h

theorem compare_lt {a b : List Nat} : Ucs2.compare a b = .lt ↔ a < b := (Props.compare_spec a b).1.trans (lexLt_iff a b)
theorem compare_gt {a b : List Nat} : Ucs2.compare a b = .gt ↔ b < a := (Props.compare_spec a b).2.2.trans (lexLt_iff b a)

theorem testBit_mask {m : Nat} (k x : Nat) (hm : m = 2 ^ k) : x &&& m ≠ 0 ↔ x.testBit k = true := by
  subst hm
  constructor
  · intro h
    cases hb : x.testBit k with
    | true => rfl
    | false =>
      refine absurd (Nat.eq_of_testBit_eq fun i => ?_) h
      rw [Nat.testBit_and, Nat.testBit_two_pow, Nat.zero_testBit]
      by_cases hk : k = i
      · subst hk; rw [hb]; rfl
      · simp [hk]
  · intro h e
    have := congrArg (fun y => y.testBit k) e
    simp [Nat.testBit_and, Nat.testBit_two_pow, h] at this

theorem bit1 (n : Nat) : n &&& 2 ≠ 0 ↔ n.testBit 1 = true := testBit_mask 1 n rfl
theorem bit0 (n : Nat) : n &&& 1 ≠ 0 ↔ n.testBit 0 = true := testBit_mask 0 n rfl

/-! ## Keys -/

/-- What is read from a key. -/
def keyOf (e : DirectoryEntry) : FileName :=
  ⟨e.parent, time (field e.key 8 8), time (field e.key 16 8), time (field e.key 24 8), time (field e.key 32 8), field e.key 48 8, field e.key 56 4,
    field e.key 64 1, e.space, e.name, if field e.key 56 4 &&& 0x400 ≠ 0 then some (field e.key 60 4) else none⟩

def dirOf (e : DirectoryEntry) : DirEntry := ⟨e.reference, keyOf e, none⟩

theorem units_lt (d : List Byte) : ∀ c ∈ unitsLe d, c < 65536 := by
  intro c hc
  induction d using unitsLe.induct with
  | case1 a b rest ih =>
    rw [unitsLe] at hc
    rcases List.mem_cons.1 hc with rfl | hc
    · have := a.isLt; have := b.isLt; omega
    · exact ih hc
  | case2 d h =>
    rw [unitsLe] at hc
    · cases hc
    · exact h

theorem readFileName_ok {e : DirectoryEntry} (h : e.Ok) : readFileName e.key = .ok (keyOf e) := by
  obtain ⟨h1, h2, h3⟩ := h
  obtain ⟨b64, g64, v64⟩ := get_ok (data := e.key) (off := 64) (by omega)
  obtain ⟨b65, g65, v65⟩ := get_ok (data := e.key) (off := 65) (by omega)
  have htag : readTag e.key (field e.key 56 4) = .ok (if field e.key 56 4 &&& 0x400 ≠ 0 then some (field e.key 60 4) else none) := by
    unfold readTag
    split
    · rw [u32le_field (by omega)]; rfl
    · rfl
  have hname : readFileNameName e.key (field e.key 64 1) = .ok e.name := by
    unfold readFileNameName
    have hs : R.slice e.key 66 (66 + field e.key 64 1 * 2) = .ok (bytesAt e.key 66 (2 * field e.key 64 1)) := by
      rw [slice_bytesAt' (n := 2 * field e.key 64 1) (by omega) (by omega)]
    rw [if_pos (by omega), R.require_true (by omega), R.ok_bind, hs, R.ok_bind]
    unfold Ucs2.readDataLe
    rw [Props.C15_decode_le _ (by rw [bytesAt_length (by omega)]; omega), R.ok_bind]
    have : (unitsLe (bytesAt e.key 66 (2 * field e.key 64 1))).takeWhile (· ≠ 0) = e.name := takeWhile_all h3
    rw [this]
    rfl
  unfold readFileName
  rw [R.require_true (by omega), R.ok_bind, u64le_field (by omega), R.ok_bind, readTime_ok (by omega), R.ok_bind, readTime_ok (by omega), R.ok_bind,
    readTime_ok (by omega), R.ok_bind, readTime_ok (by omega), R.ok_bind, u64le_field (by omega), R.ok_bind, u32le_field (by omega), R.ok_bind, htag, R.ok_bind,
    g64, R.ok_bind, g65, R.ok_bind, v64, hname, R.ok_bind, v65]
  rfl

/-! ## Values -/

theorem value_room {data : List Byte} {o length : Nat} {e : DirectoryEntry} {branch : Option Nat} {last : Bool}
    (h : Spec.NtfsFs.IndexValue data o length e branch last) : 16 + e.key.length ≤ length := by
  have := h.branch
  cases branch with
  | none => exact this.2
  | some v => have := this.2.1; omega

theorem values_room {sub : Nat → List DirectoryEntry → Prop} {data : List Byte} {limit o : Nat} {es : List DirectoryEntry} (h : ValuesAt sub data limit o es) :
    o + 16 ≤ limit := by
  induction h with
  | last h1 h2 _ => have := value_room h1; omega
  | next h1 _ _ _ ih => have := value_room h1; omega

theorem valueAt_ok {data : List Byte} {o length limit : Nat} {e : DirectoryEntry} {branch : Option Nat} {last : Bool}
    (h : Spec.NtfsFs.IndexValue data o length e branch last) (hl : o + length ≤ limit) :
    valueAt data o limit = .ok (⟨e.reference, length, e.key.length, field data (o + 12) 4⟩, o + 16 + e.key.length, length - 16 - e.key.length) := by
  have hr := value_room h
  have hin := h.inside
  have hlen : (data.drop o).length = data.length - o := List.length_drop
  unfold valueAt readIndexValue
  rw [R.require_true (by omega), R.ok_bind, slice_rest (by omega), R.ok_bind, R.require_true (by omega), R.ok_bind, u64le_field (by omega), R.ok_bind,
    u16_ok (by omega), R.ok_bind, u16_ok (by omega), R.ok_bind, u32le_field (by omega), R.ok_bind]
  simp only [field_drop, Nat.add_zero]
  rw [h.reference, h.size, h.keySize, R.require_true (by omega), R.ok_bind, R.pure_eq, R.ok_bind]
  simp only
  rw [R.require_true (by omega), R.ok_bind, R.subU_ok (by omega), R.ok_bind, R.subU_ok (by omega), R.ok_bind]
  rfl

theorem branchValue_ok {data : List Byte} {o length vcn : Nat} {e : DirectoryEntry} {last : Bool}
    (h : Spec.NtfsFs.IndexValue data o length e (some vcn) last) : branchValue data (o + 16 + e.key.length) (length - 16 - e.key.length) = .ok vcn := by
  have hb : 24 + e.key.length ≤ length := h.branch.2.1
  have hv : field data (o + length - 8) 8 = vcn := h.branch.2.2
  have hin := h.inside
  unfold branchValue
  rw [R.require_true (by omega), R.ok_bind, u64le_field (by omega), show o + 16 + e.key.length + (length - 16 - e.key.length) - 8 = o + length - 8 by omega, hv]

theorem readKey_ok {data : List Byte} {o length : Nat} {e : DirectoryEntry} {branch : Option Nat} {last : Bool}
    (h : Spec.NtfsFs.IndexValue data o length e branch last) (he : e.Ok) : readKey data (o + 16) e.key.length = .ok (keyOf e) := by
  have hr := value_room h
  have hin := h.inside
  have hs : R.slice data (o + 16) (o + 16 + e.key.length) = .ok e.key := by
    rw [slice_bytesAt (by omega), h.key]
  unfold readKey
  rw [hs, R.ok_bind, readFileName_ok he]

theorem nextValue_ok {o length k : Nat} (hl : 16 + k ≤ length) (ho : 8 ∣ o) (h8 : 8 ∣ length) : nextValue (o + 16 + k) (length - 16 - k) = o + length := by
  have : o + 16 + k + (length - 16 - k) = o + length := by omega
  unfold nextValue
  rw [this, if_neg (by have := Nat.mod_eq_zero_of_dvd (Nat.dvd_add ho h8); omega)]

theorem flag_last {data : List Byte} {o length : Nat} {e : DirectoryEntry} {branch : Option Nat} {last : Bool}
    (h : Spec.NtfsFs.IndexValue data o length e branch last) : field data (o + 12) 4 &&& 2 ≠ 0 ↔ last = true := by rw [bit1, h.last]

theorem flag_branch {data : List Byte} {o length : Nat} {e : DirectoryEntry} {branch : Option Nat} {last : Bool}
    (h : Spec.NtfsFs.IndexValue data o length e branch last) : field data (o + 12) 4 &&& 1 ≠ 0 ↔ branch.isSome = true := by
  rw [bit0]
  have := h.branch
  cases branch with
  | none => rw [this.1]; rfl
  | some v => rw [this.1]; simp

/-! ## Search -/

/-- The result of the search in a node. -/
def Found (sub : Nat → List DirectoryEntry → Prop) (fold : List Nat → List Nat) (name : List Nat) (data : List Byte) (es : List DirectoryEntry) : Search → Prop
  | .found d => ∃ e, lookup fold es name = some e ∧ d = dirOf e
  | .child offset size => ∃ vcn bs, branchValue data offset size = .ok vcn ∧ sub vcn bs ∧ Ordered fold bs ∧ lookup fold es name = lookup fold bs name
  | .none => lookup fold es name = none

theorem found_congr {sub : Nat → List DirectoryEntry → Prop} {fold : List Nat → List Nat} {name : List Nat} {data : List Byte} {es es' : List DirectoryEntry} {s : Search}
    (h : Found sub fold name data es s) (he : lookup fold es' name = lookup fold es name) : Found sub fold name data es' s := by
  unfold Found at h ⊢
  cases s with
  | found d => simp only at h ⊢; rw [he]; exact h
  | child o s => simp only at h ⊢; rw [he]; exact h
  | none => simp only at h ⊢; rw [he]; exact h

theorem lookup_append (fold : List Nat → List Nat) (a b : List DirectoryEntry) (name : List Nat) :
    lookup fold (a ++ b) name = (lookup fold a name).or (lookup fold b name) := by
  unfold lookup; exact List.find?_append

theorem lookup_none {fold : List Nat → List Nat} {es : List DirectoryEntry} {name : List Nat} (h : ∀ e ∈ es, fold e.name ≠ fold name) : lookup fold es name = none := by
  unfold lookup
  exact List.find?_eq_none.2 fun e he => by simpa using h e he

theorem name_lt (e : DirectoryEntry) : ∀ c ∈ e.name, c < 65536 := units_lt _

theorem searchValues_ok {sub : Nat → List DirectoryEntry → Prop} {fold folded : List Nat → List Nat} {name : List Nat} {data : List Byte} {limit o : Nat}
    {es : List DirectoryEntry} (hfold : ∀ l, (∀ c ∈ l, c < 65536) → folded l = fold l) (h : ValuesAt sub data limit o es) (ho : 8 ∣ o) (hord : Ordered fold es)
    (fuel : Nat) (hf : limit < fuel + o) (b : Bool) (size : Nat) :
    ∃ s, searchValues data limit folded (fold name) fuel o b size = .ok s ∧ Found sub fold name data es s := by
  induction h generalizing fuel b size with
  | @last o length e branch es h1 h2 h3 =>
    have hr := value_room h1
    obtain ⟨fuel, rfl⟩ : ∃ k, fuel = k + 1 := ⟨fuel - 1, by omega⟩
    rw [searchValues, if_pos (by omega)]
    unfold searchValue
    rw [valueAt_ok h1 h2, R.ok_bind]
    simp only
    rw [if_pos ((flag_last h1).2 rfl), R.pure_eq, R.ok_bind]
    refine ⟨_, rfl, ?_⟩
    unfold afterLoop
    cases branch with
    | none =>
      have hne : ¬ (field data (o + 12) 4 &&& 1 ≠ 0) := fun h => by simpa using (flag_branch h1).1 h
      rw [if_neg (by simpa using hne)]
      have : es = [] := h3
      subst this
      rfl
    | some vcn =>
      have hne : field data (o + 12) 4 &&& 1 ≠ 0 := (flag_branch h1).2 rfl
      rw [if_pos (by simpa using hne)]
      exact ⟨vcn, es, branchValue_ok h1, h3, hord, rfl⟩
  | @next o length e branch before after h1 h2 h3 h4 ih =>
    have hr := value_room h1
    have hroom := values_room h4
    obtain ⟨fuel, rfl⟩ : ∃ k, fuel = k + 1 := ⟨fuel - 1, by omega⟩
    obtain ⟨o1, o2, o3⟩ := List.pairwise_append.1 hord
    obtain ⟨o4, o5⟩ := List.pairwise_cons.1 o2
    have hkey : e.key.length ≠ 0 := by have := h2.2.1; omega
    rw [searchValues, if_pos (by omega)]
    unfold searchValue
    rw [valueAt_ok h1 (by omega), R.ok_bind]
    simp only
    rw [if_neg (fun h => by simpa using (flag_last h1).1 h), R.require_true hkey, R.ok_bind, readKey_ok h1 h2, R.ok_bind]
    have hfn : folded (keyOf e).name = fold e.name := hfold _ (name_lt e)
    rw [hfn, nextValue_ok hr ho h1.aligned]
    have hcase := Props.compare_spec (fold e.name) (fold name)
    cases hc : Ucs2.compare (fold e.name) (fold name) with
    | eq =>
      simp only [R.pure_eq]
      rw [R.ok_bind]
      have heq := hcase.2.1.1 hc
      refine ⟨_, rfl, e, ?_, rfl⟩
      rw [lookup_append, lookup_none fun x hx hx' => by
        have := o3 x hx e List.mem_cons_self
        rw [hx', heq] at this; exact List.lt_irrefl _ this]
      unfold lookup
      rw [List.find?_cons_of_pos (by simpa using heq)]
      rfl
    | lt =>
      simp only [R.pure_eq]
      rw [R.ok_bind]
      simp only
      obtain ⟨s, s1, s2⟩ := ih (Nat.dvd_add ho h1.aligned) o5 fuel (by omega) (field data (o + 12) 4 &&& 1 ≠ 0) (length - 16 - e.key.length)
      refine ⟨s, s1, found_congr s2 ?_⟩
      have hlt := compare_lt.1 hc
      rw [lookup_append, lookup_none fun x hx hx' => by
        have := List.lt_trans (o3 x hx e List.mem_cons_self) hlt
        rw [hx'] at this; exact List.lt_irrefl _ this]
      unfold lookup
      rw [List.find?_cons_of_neg (by intro h; rw [of_decide_eq_true h] at hlt; exact List.lt_irrefl _ hlt)]
      rfl
    | gt =>
      simp only [R.pure_eq]
      have hgt := compare_gt.1 hc
      have hafter : lookup fold (e :: after) name = none := lookup_none fun x hx hx' => by
        rcases List.mem_cons.1 hx with rfl | hx
        · rw [hx'] at hgt; exact List.lt_irrefl _ hgt
        · have := List.lt_trans hgt (o4 x hx)
          rw [hx'] at this; exact List.lt_irrefl _ this
      cases branch with
      | none =>
        have hne : ¬ (field data (o + 12) 4 &&& 1 ≠ 0) := fun h => by simpa using (flag_branch h1).1 h
        rw [if_neg hne, R.ok_bind]
        simp only
        obtain ⟨s, s1, s2⟩ := ih (Nat.dvd_add ho h1.aligned) o5 fuel (by omega) (field data (o + 12) 4 &&& 1 ≠ 0) (length - 16 - e.key.length)
        refine ⟨s, s1, found_congr s2 ?_⟩
        have : before = [] := h3
        subst this
        have h' : lookup fold after name = none := by
          have := hafter
          unfold lookup at this ⊢
          rw [List.find?_eq_none] at this ⊢
          exact fun x hx => this x (List.mem_cons_of_mem _ hx)
        rw [List.nil_append, hafter, h']
      | some vcn =>
        have hne : field data (o + 12) 4 &&& 1 ≠ 0 := (flag_branch h1).2 rfl
        rw [if_pos hne, R.ok_bind]
        refine ⟨_, rfl, vcn, before, branchValue_ok h1, h3, o1, ?_⟩
        rw [lookup_append, hafter, Option.or_none]

theorem nodeHeader_ok {sub : Nat → List DirectoryEntry → Prop} {data : List Byte} {o : Nat} {es : List DirectoryEntry} (h : NodeAt sub data o es) :
    readNodeHeader data o = .ok (field data (o + 4) 4, field data o 4) ∧ field data (o + 4) 4 ≠ 0 := by
  obtain ⟨h1, -, h3, h4⟩ := h
  have := values_room h4
  have hlen : (data.drop o).length = data.length - o := List.length_drop
  refine ⟨?_, by omega⟩
  unfold readNodeHeader
  rw [slice_rest (by omega), R.ok_bind, R.require_true (by omega), R.ok_bind, u32le_field (by omega), R.ok_bind, u32le_field (by omega), R.ok_bind]
  simp only [field_drop, Nat.add_zero]
  rw [R.require_true (by omega), R.ok_bind, R.require_true (by omega), R.ok_bind]
  rfl

theorem searchNode_ok {sub : Nat → List DirectoryEntry → Prop} {fold folded : List Nat → List Nat} {name : List Nat} {data : List Byte} {o : Nat}
    {es : List DirectoryEntry} (hfold : ∀ l, (∀ c ∈ l, c < 65536) → folded l = fold l) (h : NodeAt sub data o es) (ho : 8 ∣ o) (hord : Ordered fold es) :
    ∃ s, searchNode data o folded (fold name) = .ok s ∧ Found sub fold name data es s := by
  obtain ⟨g1, g2⟩ := nodeHeader_ok h
  obtain ⟨h1, h2, h3, h4⟩ := h
  unfold searchNode
  rw [g1, R.ok_bind]
  simp only
  rw [if_neg g2]
  exact searchValues_ok hfold h4 (Nat.dvd_add ho h2) hord _ (by omega) _ _

/-- Reading index records. -/
def Reads (U : List Byte) (x : Index) (a : Allocation) : Prop := ∀ vcn record, IndexRecord U a vcn record → indexEntryAt U x vcn = .ok record

theorem lookupNode_ok {U : List Byte} {x : Index} {a : Allocation} {fold folded : List Nat → List Nat} {name : List Nat} (hx : Reads U x a)
    (hfold : ∀ l, (∀ c ∈ l, c < 65536) → folded l = fold l) (depth : Nat) {data : List Byte} {o : Nat} {es : List DirectoryEntry}
    (h : NodeAt (Tree U a depth) data o es) (ho : 8 ∣ o) (hord : Ordered fold es) (fuel : Nat) (hf : depth < fuel) :
    lookupNode U x folded (fold name) fuel data o = .ok ((lookup fold es name).map dirOf) := by
  induction depth generalizing data o es fuel with
  | zero =>
    obtain ⟨fuel, rfl⟩ : ∃ k, fuel = k + 1 := ⟨fuel - 1, by omega⟩
    obtain ⟨s, s1, s2⟩ := searchNode_ok (name := name) hfold h ho hord
    rw [lookupNode, s1, R.ok_bind]
    cases s with
    | found d => obtain ⟨e, e1, rfl⟩ := s2; rw [e1]; rfl
    | none => have s2 : lookup fold es name = none := s2; rw [s2]; rfl
    | child _ _ => obtain ⟨vcn, bs, -, f, -⟩ := s2; exact f.elim
  | succ depth ih =>
    obtain ⟨fuel, rfl⟩ : ∃ k, fuel = k + 1 := ⟨fuel - 1, by omega⟩
    obtain ⟨s, s1, s2⟩ := searchNode_ok (name := name) hfold h ho hord
    rw [lookupNode, s1, R.ok_bind]
    cases s with
    | found d => obtain ⟨e, e1, rfl⟩ := s2; rw [e1]; rfl
    | none => have s2 : lookup fold es name = none := s2; rw [s2]; rfl
    | child offset size =>
      obtain ⟨vcn, bs, g1, ⟨record, g2, g3⟩, g4, g5⟩ := s2
      simp only
      rw [g1, R.ok_bind, hx vcn record g2, R.ok_bind, g5]
      exact ih g3 (by decide) g4 fuel (by omega)

/-! ## Lists -/

/-- The DOS names. -/
def dosOf (es : List DirectoryEntry) : List DirectoryEntry := es.filter fun e => e.name ≠ [0x2e] ∧ e.space = 2

def addAll (d : DirEntries) (es : List DirectoryEntry) : DirEntries :=
  ⟨d.entries ++ (listed es).map dirOf, d.shorts ++ (dosOf es).map fun e => (e.reference, keyOf e)⟩

theorem addAll_nil (d : DirEntries) : addAll d [] = d := by simp [addAll, listed, dosOf]

theorem addAll_append (d : DirEntries) (a b : List DirectoryEntry) : addAll (addAll d a) b = addAll d (a ++ b) := by
  simp [addAll, listed, dosOf]

/-- The DOS names are new. -/
def New (d : DirEntries) (es : List DirectoryEntry) : Prop := (d.shorts.map Prod.fst ++ (dosOf es).map (·.reference)).Nodup

theorem new_append {d : DirEntries} {a b : List DirectoryEntry} (h : New d (a ++ b)) : New d a ∧ New (addAll d a) b := by
  unfold New at h ⊢
  have e : dosOf (a ++ b) = dosOf a ++ dosOf b := List.filter_append _ _
  rw [e, List.map_append, ← List.append_assoc] at h
  refine ⟨(List.nodup_append.1 h).1, ?_⟩
  unfold addAll
  simp only [List.map_append, List.map_map]
  exact h

theorem add_entry {d : DirEntries} {e : DirectoryEntry} (he : e.Ok) (h : New d [e]) : d.add e.reference (keyOf e) = .ok (addAll d [e]) := by
  obtain ⟨h1, h2, h3⟩ := he
  have hlen : e.name.length = field e.key 64 1 := unitsLe_length _ _ (bytesAt_length (by omega))
  have hk1 : (keyOf e).nameSize = field e.key 64 1 := rfl
  have hk2 : (keyOf e).name = e.name := rfl
  have hk3 : (keyOf e).space = e.space := rfl
  unfold DirEntries.add
  rw [hk1, hk2, hk3]
  have hfirst : ∃ first, (if field e.key 64 1 = 1 then R.get e.name 0 else .ok 0 : R Nat) = .ok first ∧ (first = 0x2e ↔ e.name = [0x2e]) := by
    split
    · rename_i h
      rw [h] at hlen
      obtain ⟨c, hc⟩ := List.length_eq_one_iff.1 hlen
      rw [hc]
      exact ⟨c, rfl, by simp⟩
    · rename_i h
      refine ⟨0, rfl, fun h0 => absurd h0 (by decide), fun e' => ?_⟩
      rw [e'] at hlen
      exact absurd hlen.symm h
  obtain ⟨first, f1, f2⟩ := hfirst
  rw [f1, R.ok_bind]
  unfold New dosOf at h
  unfold addAll listed dosOf
  by_cases hd : e.name = [0x2e]
  · rw [if_pos (f2.2 hd)]
    rw [List.filter_cons, if_neg (by simp [hd]), List.filter_cons, if_neg (by simp [hd])]
    simp [R.pure_eq]
  rw [if_neg (fun h => hd (f2.1 h))]
  by_cases hs : e.space = 2
  · rw [List.filter_cons, if_pos (by simp [hd, hs])] at h
    have hany : d.shorts.any (·.1 = e.reference) = false := by
      rw [List.any_eq_false]
      intro x hx hx'
      refine (List.nodup_append.1 h).2.2 x.1 (List.mem_map_of_mem hx) e.reference (by simp) (by simpa using hx')
    rw [if_pos hs, R.require_true hany, R.ok_bind, List.filter_cons, if_neg (by simp [hs]), List.filter_cons, if_pos (by simp [hd, hs])]
    simp [R.pure_eq]
  · rw [if_neg hs, List.filter_cons, if_pos (by simp [hd, hs]), List.filter_cons, if_neg (by simp [hs])]
    simp [R.pure_eq, dirOf]

theorem listValues_ok {sub : Nat → List DirectoryEntry → Prop} {U : List Byte} {x : Index} {list : List Byte → Nat → DirEntries → R DirEntries} {data : List Byte}
    {limit o : Nat} {es : List DirectoryEntry}
    (hlist : ∀ vcn bs d, sub vcn bs → New d bs → (do let child ← indexEntryAt U x vcn; list child 24 d) = .ok (addAll d bs))
    (h : ValuesAt sub data limit o es) (ho : 8 ∣ o) (fuel : Nat) (hf : limit < fuel + o) (d : DirEntries) (hnew : New d es) :
    listValues list U x data limit fuel o d = .ok (addAll d es) := by
  have hchild : ∀ {o length : Nat} {e : DirectoryEntry} {branch : Option Nat} {last : Bool} {bs : List DirectoryEntry} {d : DirEntries},
      Spec.NtfsFs.IndexValue data o length e branch last → Below sub branch bs → New d bs →
      listChild list U x data ⟨e.reference, length, e.key.length, field data (o + 12) 4⟩ (o + 16 + e.key.length) (length - 16 - e.key.length) d = .ok (addAll d bs) := by
    intro o length e branch last bs d h1 h2 h3
    unfold listChild
    cases branch with
    | none =>
      have : bs = [] := h2
      subst this
      rw [if_neg (fun h => by simpa using (flag_branch h1).1 h), addAll_nil]
    | some vcn =>
      rw [if_pos ((flag_branch h1).2 rfl), branchValue_ok h1, R.ok_bind]
      exact hlist vcn bs d h2 h3
  induction h generalizing fuel d with
  | @last o length e branch es h1 h2 h3 =>
    have hr := value_room h1
    obtain ⟨fuel, rfl⟩ : ∃ k, fuel = k + 1 := ⟨fuel - 1, by omega⟩
    rw [listValues, if_pos (by omega), valueAt_ok h1 h2, R.ok_bind]
    simp only
    rw [hchild h1 h3 hnew, R.ok_bind, if_pos ((flag_last h1).2 rfl)]
    rfl
  | @next o length e branch before after h1 h2 h3 h4 ih =>
    have hr := value_room h1
    have hroom := values_room h4
    obtain ⟨fuel, rfl⟩ : ∃ k, fuel = k + 1 := ⟨fuel - 1, by omega⟩
    obtain ⟨n1, n2⟩ := new_append hnew
    rw [← List.singleton_append] at n2
    obtain ⟨n3, n4⟩ := new_append n2
    rw [listValues, if_pos (by omega), valueAt_ok h1 (by omega), R.ok_bind]
    simp only
    rw [hchild h1 h3 n1, R.ok_bind, if_neg (fun h => by simpa using (flag_last h1).1 h), readKey_ok h1 h2, R.ok_bind, add_entry h2 n3, R.ok_bind,
      nextValue_ok hr ho h1.aligned, ih (Nat.dvd_add ho h1.aligned) fuel (by omega) _ n4, addAll_append, addAll_append, List.singleton_append]

theorem listNode_ok {U : List Byte} {x : Index} {a : Allocation} (hx : Reads U x a) (depth : Nat) {data : List Byte} {o : Nat} {es : List DirectoryEntry}
    (h : NodeAt (Tree U a depth) data o es) (ho : 8 ∣ o) (fuel : Nat) (hf : depth < fuel) (d : DirEntries) (hnew : New d es) :
    listNode U x fuel data o d = .ok (addAll d es) := by
  induction depth generalizing data o es fuel d with
  | zero =>
    obtain ⟨fuel, rfl⟩ : ∃ k, fuel = k + 1 := ⟨fuel - 1, by omega⟩
    obtain ⟨g1, g2⟩ := nodeHeader_ok h
    obtain ⟨h1, h2, h3, h4⟩ := h
    rw [listNode, g1, R.ok_bind]
    simp only
    rw [if_neg g2]
    exact listValues_ok (fun _ _ _ f => f.elim) h4 (Nat.dvd_add ho h2) _ (by omega) d hnew
  | succ depth ih =>
    obtain ⟨fuel, rfl⟩ : ∃ k, fuel = k + 1 := ⟨fuel - 1, by omega⟩
    obtain ⟨g1, g2⟩ := nodeHeader_ok h
    obtain ⟨h1, h2, h3, h4⟩ := h
    rw [listNode, g1, R.ok_bind]
    simp only
    rw [if_neg g2]
    refine listValues_ok (fun vcn bs d f hn => ?_) h4 (Nat.dvd_add ho h2) _ (by omega) d hnew
    obtain ⟨record, f1, f2⟩ := f
    rw [hx vcn record f1, R.ok_bind]
    exact ih f2 (by decide) fuel (by omega) d hn

/-! ## Index records -/

theorem indexRuns_eq {bs : Nat} (runs : List DataRun) (h : ∀ r ∈ runs, r.kind = .inFile) (vcn off : Nat) (tree : BlockTree.Tree Range) :
    indexRuns bs runs vcn off tree = Ntfs.openRuns bs runs vcn off tree := by
  induction runs generalizing vcn off tree with
  | nil => rfl
  | cons r runs ih =>
    have hk := h r List.mem_cons_self
    have hs : Ntfs.rangeSparse r.kind = .ok false := by rw [hk]; rfl
    rw [indexRuns, Ntfs.openRuns]
    simp only [ih fun x hx => h x (List.mem_cons_of_mem _ hx)]
    rw [R.require_true hk, hs]
    simp only [R.ok_bind]

theorem indexGroups_eq {bs : Nat} (groups : List (Nat × Nat × List DataRun)) (h : ∀ g ∈ groups, ∀ r ∈ g.2.2, r.kind = .inFile) (vcn off : Nat)
    (tree : BlockTree.Tree Range) :
    indexGroups bs groups vcn off tree = Ntfs.openGroups bs (groups.map fun g => ⟨g.1, g.2.1, g.2.2⟩) vcn off tree := by
  induction groups generalizing vcn off tree with
  | nil => rfl
  | cons g groups ih =>
    rw [indexGroups, List.map_cons, Ntfs.openGroups, indexRuns_eq _ (h g List.mem_cons_self)]
    simp only [ih fun x hx => h x (List.mem_cons_of_mem _ hx)]

theorem reads_ok {U : List Byte} {a : Allocation} {x : Index} (hU : U.length < 2 ^ 63) (hd : DataRuns U (clusterSize U) a.runs) (hs : 42 ≤ a.size ∧ a.size ≤ 65535)
    (hcs : clusterSize U ≤ a.size) (hw : ∀ r ∈ a.runs, a.size ∣ r.count * clusterSize U) (hxc : x.clusterSize = clusterSize U) (hxs : x.entrySize = a.size)
    (hh : Holds x.tree (Layout.ranges (runLen (clusterSize U)) runRange 0 a.runs)) (ht : Layout.total (runLen (clusterSize U)) a.runs ≤ x.tree.dataSize)
    (hds : x.tree.dataSize < 2 ^ 63) : Reads U x a := by
  intro vcn record h
  obtain ⟨h0, h1, h2, h3, h4⟩ := h
  simp only [if_pos hcs] at h0 h1 h2
  have hfl := Layout.flatMap_length (runLen (clusterSize U)) (Run.bytes U (clusterSize U)) a.runs (fun r hr => Ntfs.Run.bytes_length fun count lcn e => by
    obtain ⟨c, l, e', -, h⟩ := hd r hr
    rw [e] at e'; cases e'; exact h)
  obtain ⟨off, count, lcn, g1, g2, g3, g4, g5⟩ := place hd hw hh ht (by omega) h0 h1
  rw [Nat.add_mul] at g4
  rw [g5] at h2
  unfold indexEntryAt
  rw [hxc, hxs, R.mulU_ok (by omega), R.ok_bind, g1, R.ok_bind]
  simp only [Fat.orErr]
  rw [R.ok_bind]
  simp only
  rw [R.subU_ok g2, R.ok_bind, R.mulU_ok (by omega), R.ok_bind, R.addU_ok (by omega), R.ok_bind, R.mulU_ok (by omega), R.ok_bind, R.subU_ok (by omega), R.ok_bind,
    R.require_true (by omega), R.ok_bind, R.require_true hs, R.ok_bind, readExactAt_ok (by omega), R.ok_bind]
  have hraw : (U.drop (lcn * clusterSize U + (vcn * clusterSize U - off))).take a.size = bytesAt U (lcn * clusterSize U + (vcn * clusterSize U - off)) a.size := rfl
  rw [hraw]
  generalize bytesAt U (lcn * clusterSize U + (vcn * clusterSize U - off)) a.size = raw at h2
  obtain ⟨l1, l2⟩ := stored_length h2
  have hsig : R.slice raw 0 4 = .ok [0x49#8, 0x4e#8, 0x44#8, 0x58#8] := by
    rw [slice_bytesAt' (n := 4) rfl (by omega), stored_bytes h2 (by omega), h3]
  have h42 : field record 4 2 ≤ 510 := by obtain ⟨k, n, k1, -, -, k4, -⟩ := h2; omega
  unfold readIndexEntry
  rw [R.require_true (by omega), R.ok_bind, hsig, R.ok_bind, R.require_true rfl, R.ok_bind, u16_ok (by omega), R.ok_bind, u16_ok (by omega), R.ok_bind,
    stored_field h2 (by omega), stored_field h2 (by omega), R.require_true (by omega), R.ok_bind]
  exact stored_restore h2

theorem openIndex_ok {U : List Byte} {A : Attr} {flags size depth : Nat} {p : Piece} {ps : List Piece} (hb : Spec.NtfsFs.Boot U) (hU : U.length < 2 ^ 63)
    (h : Kept A flags p ps) (hf : flags % 256 = 0) (hg : Follow 0 ((p :: ps).map pieceGroup)) (hv : InVolume U p ps)
    (hh : HandledIndex U depth ⟨size, (p :: ps).flatMap Piece.runs⟩) :
    ∃ x, openIndex (clusterSize U) size A = .ok x ∧ Reads U x ⟨size, (p :: ps).flatMap Piece.runs⟩ ∧ depth ≤ x.clusters := by
  have hcs := cluster_pos hb
  have h255 : flags &&& 0xff = flags % 256 := Nat.and_two_pow_sub_one_eq_mod flags 8
  have k1 : A.isResident = false := by simp [Attr.isResident, h.nonResident]
  have k2 : A.isCompressed = false := by simp [Attr.isCompressed, h.flags, h255, hf]
  have hkind : ∀ g ∈ A.groups, ∀ r ∈ g.2.2, r.kind = .inFile := by
    intro g hg r hr
    rw [h.groups] at hg
    obtain ⟨q, hq, rfl⟩ := List.mem_map.1 hg
    obtain ⟨r', hr', rfl⟩ := List.mem_map.1 hr
    obtain ⟨c, l, rfl⟩ := hh.data r' (List.mem_flatMap.2 ⟨q, hq, hr'⟩)
    rfl
  have hgroups : A.groups.map (fun g => (⟨g.1, g.2.1, g.2.2⟩ : Ntfs.Group)) = ((p :: ps).map pieceGroup).map Ntfs.keptGroup := by
    rw [h.groups, List.map_map, List.map_map]; rfl
  have htot : Layout.total (runLen (clusterSize U)) ((p :: ps).flatMap Piece.runs) = p.allocated := hv.allocated
  have hmul : ∀ runs : List Run, Layout.total (runLen (clusterSize U)) runs = (runs.map Run.count).sum * clusterSize U := by
    intro runs
    induction runs with
    | nil => simp [Layout.total]
    | cons r runs ih => rw [Layout.total_cons, ih, List.map_cons, List.sum_cons, Nat.add_mul]; rfl
  have hdiv : p.allocated / clusterSize U = (((p :: ps).flatMap Piece.runs).map Run.count).sum := by rw [← htot, hmul, Nat.mul_div_cancel _ hcs]
  have hsize : p.allocated / clusterSize U * clusterSize U = p.allocated := by rw [hdiv, ← hmul, htot]
  have hfits := hv.fits
  obtain ⟨tree, t1, t2, t3⟩ := Ntfs.openGroups_ok hcs ((p :: ps).map pieceGroup) (fun g hg r hr => by
      obtain ⟨q, hq, rfl⟩ := List.mem_map.1 hg
      exact hv.positive q hq r hr) (vcn := 0) (off := 0) hg
    (tree := BlockTree.new p.allocated 0 (clusterSize U)) (new_holds _ _ _ hcs) rfl rfl (by show p.allocated < _; omega) (Nat.dvd_zero _)
    (by rw [flatMap_pieceGroup, htot, Nat.zero_add]; exact Nat.le_refl _) (by simp) (Nat.le_refl _)
  rw [flatMap_pieceGroup, List.nil_append] at t2
  have htd : tree.dataSize = p.allocated := t3
  have hne : (p :: ps).flatMap Piece.runs ≠ [] := fun e => by
    rw [e] at htot
    have := hv.some
    simp [Layout.total] at htot; omega
  refine ⟨⟨clusterSize U, size, tree⟩, ?_, ?_, ?_⟩
  · unfold openIndex
    rw [R.require_true k1, R.ok_bind, R.require_true k2, R.ok_bind, R.check_true (by omega), R.ok_bind, h.allocated, hsize, indexGroups_eq _ hkind, hgroups, t1,
      R.ok_bind]
    rfl
  · refine reads_ok hU (fun r hr => ?_) hh.size (hh.cluster hne) hh.whole rfl rfl t2 (by show _ ≤ tree.dataSize; rw [htd, htot]) (by show tree.dataSize < _; omega)
    obtain ⟨c, l, rfl⟩ := hh.data r hr
    obtain ⟨q, hq, hr'⟩ := List.mem_flatMap.1 hr
    exact ⟨c, l, rfl, hv.positive q hq _ hr', hv.inside q hq c l hr'⟩
  · unfold Index.clusters
    simp only
    rw [htd, hdiv]
    exact hh.levels

/-! ## Directories -/

open Classical in
private noncomputable instance (as : List Attribute) : Decidable (CaseSensitive as) := propDecidable _


theorem folded_ok {upper : List Byte} {l : List Nat} (h : ∀ c ∈ l, c < 65536) : Ucs2.caseFold (foldOf upper) l = l.map (upperCase upper) := by
  unfold Ucs2.caseFold
  refine List.map_congr_left fun c hc => ?_
  unfold foldOf upperCase field bytesAt
  rw [if_pos (h c hc)]
  simp only
  split
  · rfl
  · rename_i e
    exact Decidable.of_not_not e

theorem standardAttr {as : List Attribute} {attrs : Attrs} (hi : Inv as attrs) (hs : Sound as) :
    usesFolding attrs = .ok (decide (¬ CaseSensitive as)) := by
  unfold usesFolding
  by_cases hn : named as none 0x10 = []
  · rw [get_none hi (by decide) hn]
    simp only
    have : ¬ CaseSensitive as := by
      rintro ⟨a, ha, data, h1, h2, -⟩
      have : a ∈ named as none 0x10 := mem_named.2 ⟨ha, h2, h1⟩
      rw [hn] at this; cases this
    rw [decide_eq_true this]
  · obtain ⟨a, ha⟩ := List.exists_mem_of_ne_nil _ hn
    obtain ⟨ha1, ha2, ha3⟩ := mem_named.1 ha
    obtain ⟨data, hv, hl⟩ := hs.standard a ha1 ha3
    have hres : named as none 0x10 = [a] := named_one hs.single (by decide) ha1 ha2 ha3
    obtain ⟨kind, flags, name, value⟩ := a
    simp only at ha2 ha3 hv
    subst ha2 ha3 hv
    obtain ⟨length, e⟩ := get_resident hi (by decide) (n := none) (k := 0x10) (flags := flags) (data := data) hres
    rw [e]
    simp only
    rw [readStandard_ok rfl hl, R.ok_bind, R.pure_eq]
    congr 1
    have hm : (standardOf data).maxVersions = field data 36 4 := rfl
    have hv : (standardOf data).version = field data 40 4 := rfl
    have hiff : CaseSensitive as ↔ field data 36 4 = 0 ∧ field data 40 4 = 1 := by
      constructor
      · rintro ⟨b, hb, data', b1, b2, b3, b4⟩
        have : b ∈ named as none 0x10 := mem_named.2 ⟨hb, b2, b1⟩
        rw [hres] at this
        rw [List.mem_singleton.1 this] at b3
        cases b3
        exact b4
      · intro h
        exact ⟨_, ha1, data, rfl, rfl, rfl, h⟩
    rw [hm, hv]
    by_cases hc : CaseSensitive as
    · rw [decide_eq_false (not_not_intro hc), decide_eq_true (hiff.1 hc)]; rfl
    · rw [decide_eq_true hc, decide_eq_false (fun h => hc (hiff.2 h))]; rfl

/-- A directory as it is opened. -/
theorem openDirectory_ok {U : List Byte} {V : Spec.NtfsFs.Volume} {as : List Attribute} {attrs : Attrs} {fold : List Nat → List Nat} {es : List DirectoryEntry}
    (hb : Spec.NtfsFs.Boot U) (hU : U.length < 2 ^ 63) (hi : Inv as attrs) (hs : Sound as) (h : IsDirectory U V.upper as fold es) :
    ∃ d, openDirectory (clusterSize U) attrs = .ok d ∧
      (∀ name, (∀ c ∈ name, c < 65536) → d.lookup U (foldOf V.upper) name = .ok ((lookup fold es name).map dirOf)) ∧
      (DosNames es → d.list U = .ok (addAll ⟨[], []⟩ es)) := by
  obtain ⟨⟨depth, a, hdir, hh⟩, hcomp, hord⟩ := h
  have hx : ∃ data x, RootAt as data a.size ∧ allocationOf (clusterSize U) a.size attrs = .ok x ∧ Reads U x a ∧ depth ≤ x.clusters ∧
      NodeAt (Tree U a depth) data 16 es := by
    cases hdir with
    | @root data size es h1 h2 h3 =>
      refine ⟨data, ⟨clusterSize U, 0, BlockTree.new 0 0 0⟩, h1, ?_, ?_, Nat.zero_le _, ?_⟩
      · unfold allocationOf
        rw [show i30 = Spec.NtfsFs.i30 from rfl, get_none hi (by decide) h2]
      · intro vcn record hr
        obtain ⟨-, h, -⟩ := hr
        have := hh.size
        simp at h
        simp only at this
        omega
      · have : Tree U ⟨size, []⟩ 0 = fun _ _ => False := by funext v e; rfl
        rw [this]; exact h3
    | @tree data size flags p ps depth es h1 h2 h3 h4 h5 =>
      obtain ⟨A, A1, A2⟩ := get_clusters hi (by decide) h3
      obtain ⟨x, x1, x2, x3⟩ := openIndex_ok hb hU A2 h2 h3.2.2.2 h4 hh
      refine ⟨data, x, h1, ?_, x2, x3, h5⟩
      unfold allocationOf
      rw [show i30 = Spec.NtfsFs.i30 from rfl, A1]
      exact x1
  obtain ⟨data, x, hroot, hal, hreads, hdepth, hnode⟩ := hx
  obtain ⟨⟨flags, hres⟩, hlong, htype, hcol, hsize⟩ := hroot
  have hmem : ∃ b ∈ as, b.name = Spec.NtfsFs.i30 := by
    have : (⟨0x90, flags, Spec.NtfsFs.i30, .resident data⟩ : Attribute) ∈ named as Spec.NtfsFs.i30 0x90 := by rw [hres]; exact List.mem_singleton_self _
    exact ⟨_, (mem_named.1 this).1, rfl⟩
  obtain ⟨length, hget⟩ := get_resident hi (by decide) hres
  have k1 : (attrOf length 0 ⟨0x90, flags, Spec.NtfsFs.i30, .resident data⟩).isResident = true := by simp [Attr.isResident, attrOf]
  have k2 : (attrOf length 0 ⟨0x90, flags, Spec.NtfsFs.i30, .resident data⟩).resident = data := rfl
  have hhas : attrs.has i30 = true := (hi.names _).2 hmem
  have hsz := hh.size
  refine ⟨⟨data, x, decide (¬ CaseSensitive as)⟩, ?_, ?_, ?_⟩
  · unfold openDirectory
    rw [R.require_true hhas, R.ok_bind, show i30 = Spec.NtfsFs.i30 from rfl, hget]
    simp only [Fat.orErr]
    rw [R.ok_bind, R.require_true k1, R.ok_bind, k2, R.require_true (by omega), R.ok_bind, u32le_field (by omega), R.ok_bind, u32le_field (by omega), R.ok_bind,
      u32le_field (by omega), R.ok_bind, R.require_true htype, R.ok_bind, R.require_true hcol, R.ok_bind, hsize, R.require_true (by omega), R.ok_bind,
      standardAttr hi hs, R.ok_bind, hal, R.ok_bind]
    rfl
  · intro name hname
    have hfold : ∀ l : List Nat, (∀ c ∈ l, c < 65536) → Directory.folded ⟨data, x, decide (¬ CaseSensitive as)⟩ (foldOf V.upper) l = fold l := by
      intro l hl
      unfold Directory.folded
      cases hcomp with
      | sensitive hc => rw [if_neg (by simp [hc])]; rfl
      | insensitive hc => rw [if_pos (by simp [hc]), folded_ok hl]
    unfold Directory.lookup
    rw [hfold name hname]
    exact lookupNode_ok hreads hfold depth hnode (by decide) hord _ (by show depth < x.clusters + 2; omega)
  · intro hdos
    unfold Directory.list
    refine listNode_ok hreads depth hnode (by decide) _ (by show depth < 2 * x.clusters + 3; omega) _ ?_
    unfold New
    simp only [List.map_nil, List.nil_append]
    unfold DosNames at hdos
    rw [List.nodup_iff_pairwise_ne, List.pairwise_map]
    exact hdos

/-- A file found in a directory. -/
def Entered (e : Option DirectoryEntry) (d : Option DirEntry) : Prop := d = e.map dirOf

theorem subByName_ok {U : List Byte} {V : Spec.NtfsFs.Volume} {v : Volume} {n : Nat} {as : List Attribute} {f : File} {fold : List Nat → List Nat}
    {es : List DirectoryEntry} (hV : IsVolume U V) (hU : U.length < 2 ^ 63) (hv : VolumeOk U V v) (hf : FileOk U V n as f) (hs : Sound as)
    (h : IsDirectory U V.upper as fold es) (name : List Nat) (hname : ∀ c ∈ name, c < 65536) :
    (lookup fold es name = none → subByName U v f name = .ok none) ∧
    ∀ e, lookup fold es name = some e → subByName U v f name = (do let file ← readFile U v (e.reference % 2 ^ 48); return some ⟨file, some (dirOf e)⟩) := by
  obtain ⟨d, d1, d2, -⟩ := openDirectory_ok hV.boot hU hf.attrs hs h
  have hidx : f.hasIndex ≠ false := by
    obtain ⟨⟨depth, a, hdir, -⟩, -, -⟩ := h
    have hroot : ∃ data size, RootAt as data size := by cases hdir <;> exact ⟨_, _, ‹_›⟩
    obtain ⟨data, size, ⟨flags, hres⟩, -⟩ := hroot
    have : (⟨0x90, flags, Spec.NtfsFs.i30, .resident data⟩ : Attribute) ∈ named as Spec.NtfsFs.i30 0x90 := by rw [hres]; exact List.mem_singleton_self _
    rw [hf.index.2 ⟨_, (mem_named.1 this).1, rfl⟩]; decide
  have hstep : subByName U v f name = (do
      match (lookup fold es name).map dirOf with
      | some e => do
        let file ← readFile U v (e.reference % 2 ^ 48)
        return some ⟨file, some e⟩
      | none => return none) := by
    unfold subByName
    rw [if_neg hidx, hv.mft.cluster, d1, R.ok_bind, hv.folds, d2 name hname, R.ok_bind]
    rfl
  constructor
  · intro e; rw [hstep, e]; rfl
  · intro e he; rw [hstep, he]; rfl

theorem subByName_file {U : List Byte} {V : Spec.NtfsFs.Volume} {v : Volume} {n : Nat} {as : List Attribute} {f : File} (hf : FileOk U V n as f)
    (h : NotDirectory as) (name : List Nat) : subByName U v f name = .ok none := by
  have hidx : f.hasIndex = false := by
    cases hc : f.hasIndex with
    | false => rfl
    | true => obtain ⟨a, ha, e⟩ := hf.index.1 hc; exact absurd e (h a ha)
  unfold subByName
  rw [if_pos hidx]

theorem subEntries_ok {U : List Byte} {V : Spec.NtfsFs.Volume} {v : Volume} {n : Nat} {as : List Attribute} {f : File} {fold : List Nat → List Nat}
    {es : List DirectoryEntry} (hV : IsVolume U V) (hU : U.length < 2 ^ 63) (hv : VolumeOk U V v) (hf : FileOk U V n as f) (hs : Sound as)
    (h : IsDirectory U V.upper as fold es) (hdos : DosNames es) : f.hasIndex = true ∧ subEntries U v f = .ok (addAll ⟨[], []⟩ es) := by
  obtain ⟨d, d1, -, d2⟩ := openDirectory_ok hV.boot hU hf.attrs hs h
  have hidx : f.hasIndex = true := by
    obtain ⟨⟨depth, a, hdir, -⟩, -, -⟩ := h
    have hroot : ∃ data size, RootAt as data size := by cases hdir <;> exact ⟨_, _, ‹_›⟩
    obtain ⟨data, size, ⟨flags, hres⟩, -⟩ := hroot
    have : (⟨0x90, flags, Spec.NtfsFs.i30, .resident data⟩ : Attribute) ∈ named as Spec.NtfsFs.i30 0x90 := by rw [hres]; exact List.mem_singleton_self _
    exact hf.index.2 ⟨_, (mem_named.1 this).1, rfl⟩
  refine ⟨hidx, ?_⟩
  unfold subEntries
  rw [R.require_true hidx, R.ok_bind, hv.mft.cluster, d1, R.ok_bind, d2 hdos]

theorem fileByNumber_ok {U : List Byte} {V : Spec.NtfsFs.Volume} {v : Volume} {n : Nat} {as : List Attribute} (hV : IsVolume U V) (hU : U.length < 2 ^ 63)
    (hv : VolumeOk U V v) (h : IsFile U V.mft n as) :
    ∃ f, fileByNumber U v n = .ok f ∧ readFile U v n = .ok f ∧ FileOk U V n as f := by
  obtain ⟨f, f1, f2⟩ := readFile_ok hV hU hv h.attributes h.sound h.short
  refine ⟨f, ?_, f1, f2⟩
  obtain ⟨record, ⟨r1, -⟩, -⟩ := f2.entry
  unfold fileByNumber
  have hpos : 0 < entrySize U := by have := hV.boot.entry; omega
  have : n < v.mft.count := by
    rw [hv.mft.count]
    exact (Nat.le_div_iff_mul_le hpos).2 r1
  rw [R.require_true this, R.ok_bind, f1]

theorem walk_ok {U : List Byte} {V : Spec.NtfsFs.Volume} {v : Volume} (hV : IsVolume U V) (hU : U.length < 2 ^ 63) (hv : VolumeOk U V v) {n : Nat}
    {e : Option DirectoryEntry} {names : List (List Nat)} {r : Option (Nat × Option DirectoryEntry)} (h : Path U V n e names r)
    (hn : ∀ name ∈ names, ∀ c ∈ name, c < 65536) {f : File} (hf : readFile U v n = .ok f) :
    (r = none → walk U v names ⟨f, e.map dirOf⟩ = .ok none) ∧
    ∀ m e', r = some (m, e') → ∃ f', fileByNumber U v m = .ok f' ∧ walk U v names ⟨f, e.map dirOf⟩ = .ok (some ⟨f', e'.map dirOf⟩) := by
  induction h generalizing f with
  | @here n e as h1 =>
    obtain ⟨f', g1, g2, -⟩ := fileByNumber_ok hV hU hv h1
    rw [hf] at g2; cases g2
    refine ⟨nofun, fun m e' he => ?_⟩
    cases he
    exact ⟨f, g1, rfl⟩
  | @file n e as name rest h1 h2 =>
    obtain ⟨f', -, g2, g3⟩ := fileByNumber_ok hV hU hv h1
    rw [hf] at g2; cases g2
    refine ⟨fun _ => ?_, nofun⟩
    rw [walk]
    simp only
    rw [subByName_file g3 h2, R.ok_bind]
    rfl
  | @missing n e as fold es name rest h1 h2 h3 =>
    obtain ⟨f', -, g2, g3⟩ := fileByNumber_ok hV hU hv h1
    rw [hf] at g2; cases g2
    refine ⟨fun _ => ?_, nofun⟩
    rw [walk]
    simp only
    rw [(subByName_ok hV hU hv g3 h1.sound h2 name (hn name List.mem_cons_self)).1 h3, R.ok_bind]
    rfl
  | @step n e as fold es name rest e' r h1 h2 h3 h4 ih =>
    obtain ⟨f', -, g2, g3⟩ := fileByNumber_ok hV hU hv h1
    rw [hf] at g2; cases g2
    have hfile : ∃ as', IsFile U V.mft (e'.reference % 2 ^ 48) as' := by cases h4 <;> exact ⟨_, ‹_›⟩
    obtain ⟨as', h1'⟩ := hfile
    obtain ⟨f2, -, k2, -⟩ := fileByNumber_ok hV hU hv h1'
    have := ih (fun x hx => hn x (List.mem_cons_of_mem _ hx)) k2
    have hw : walk U v (name :: rest) ⟨f, e.map dirOf⟩ = walk U v rest ⟨f2, (some e').map dirOf⟩ := by
      rw [walk]
      simp only
      rw [(subByName_ok hV hU hv g3 h1.sound h2 name (hn name List.mem_cons_self)).2 e' h3, k2, R.ok_bind, R.pure_eq, R.ok_bind]
      rfl
    rw [hw]
    exact this

end Keramics.NtfsFs
