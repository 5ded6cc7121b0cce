import Mathlib.Data.List.Induction
import Verif.Lemmas.NtfsVolume

/-!
# The attributes that are read are those of the specification
-/

namespace Keramics.NtfsFs
open Keramics.Spec Keramics.Spec.Ntfs Keramics.Spec.NtfsFs
open Keramics.Ntfs (DataRun)

abbrev Groups := List (Nat × Nat × List DataRun)

/-! ## Sorting -/

theorem insertGroup_perm (g : Nat × Nat × List DataRun) (l : Groups) : (insertGroup g l).Perm (g :: l) := by
  induction l with
  | nil => exact List.Perm.refl _
  | cons h l ih =>
    rw [insertGroup]
    split
    · exact List.Perm.refl _
    · exact (ih.cons h).trans (List.Perm.swap g h l)

theorem insertGroup_sorted (g : Nat × Nat × List DataRun) (l : Groups) (h : l.Pairwise (fun a b => a.1 ≤ b.1)) :
    (insertGroup g l).Pairwise (fun a b => a.1 ≤ b.1) := by
  induction l with
  | nil => exact List.pairwise_singleton _ _
  | cons b l ih =>
    obtain ⟨h1, h2⟩ := List.pairwise_cons.1 h
    rw [insertGroup]
    split
    · rename_i hlt
      refine List.pairwise_cons.2 ⟨fun x hx => ?_, h⟩
      rcases List.mem_cons.1 hx with rfl | hx
      · omega
      · have := h1 x hx; omega
    · rename_i hlt
      refine List.pairwise_cons.2 ⟨fun x hx => ?_, ih h2⟩
      rcases List.mem_cons.1 ((insertGroup_perm g l).mem_iff.1 hx) with rfl | hx
      · omega
      · exact h1 x hx

theorem sortGroups_from (l acc : Groups) (h : acc.Pairwise (fun a b => a.1 ≤ b.1)) :
    (l.foldl (fun sorted g => insertGroup g sorted) acc).Perm (acc ++ l) ∧
      (l.foldl (fun sorted g => insertGroup g sorted) acc).Pairwise (fun a b => a.1 ≤ b.1) := by
  induction l generalizing acc with
  | nil => exact ⟨by simp, h⟩
  | cons g l ih =>
    obtain ⟨h1, h2⟩ := ih (insertGroup g acc) (insertGroup_sorted g acc h)
    refine ⟨h1.trans ?_, h2⟩
    exact ((insertGroup_perm g acc).append_right l).trans List.perm_middle.symm

theorem sortGroups_perm (l : Groups) : (sortGroups l).Perm l := (sortGroups_from l [] List.Pairwise.nil).1

theorem sortGroups_sorted (l : Groups) : (sortGroups l).Pairwise (fun a b => a.1 ≤ b.1) := (sortGroups_from l [] List.Pairwise.nil).2

/-! ## One attribute -/

/-- The runs that are read of a record of an attribute in clusters. -/
def groupsOf (a : Attribute) : Groups := match a.value with
  | .resident _ => []
  | .clusters first last _ _ _ _ runs => [(first, last, runs.map Ntfs.kept)]

def InClusters (a : Attribute) : Prop := ∃ f l x s v u r, a.value = .clusters f l x s v u r

/-- The sizes of an attribute are those of a record of it. -/
def SizesOf (A : Attr) (a : Attribute) : Prop := ∃ f l x s v u r, a.value = .clusters f l x s v u r ∧ A.allocated = x ∧ A.dataSize = s ∧
  A.validSize = v ∧ A.unit = if u = 0 then 0 else 2 ^ u

def IsFirst (a : Attribute) : Prop := ∃ l x s v u r, a.value = .clusters 0 l x s v u r

/-- What is kept of the records of one attribute. -/
inductive AttrIs (l : List Attribute) (A : Attr) : Prop
  | resident (a : Attribute) (data : List Byte) (length : Nat) : l = [a] → a.value = .resident data → A = attrOf length 0 a → AttrIs l A
  | clusters : (∀ a ∈ l, InClusters a) → A.nonResident = 1#8 → A.resident = [] → (∃ a ∈ l, A.flags = a.flags) → A.groups.Perm (l.flatMap groupsOf) →
      A.groups.Pairwise (fun a b => a.1 ≤ b.1) → (∃ a ∈ l, SizesOf A a ∧ ((∃ b ∈ l, IsFirst b) → IsFirst a)) → AttrIs l A

theorem attrIs_one (a : Attribute) (length c : Nat) : AttrIs [a] (attrOf length c a) := by
  obtain ⟨kind, flags, name, value⟩ := a
  cases value with
  | resident data => exact .resident _ data length rfl rfl rfl
  | clusters f l x s v u r =>
    refine .clusters (fun a ha => ?_) rfl rfl ⟨_, List.mem_singleton_self _, rfl⟩ (List.Perm.refl _) (List.pairwise_singleton _ _)
      ⟨_, List.mem_singleton_self _, ⟨f, l, x, s, v, u, r, rfl, rfl, rfl, rfl, rfl⟩, fun ⟨b, hb, hf⟩ => ?_⟩
    · rw [List.mem_singleton.1 ha]; exact ⟨f, l, x, s, v, u, r, rfl⟩
    · rw [List.mem_singleton.1 hb] at hf; exact hf

theorem merge_ok {l : List Attribute} {A : Attr} {a : Attribute} (h : AttrIs l A) (hl : ∀ b ∈ l, InClusters b) (hne : l ≠ []) (ha : InClusters a)
    (length c : Nat) : ∃ B, merge A (attrOf length c a) = .ok B ∧ AttrIs (l ++ [a]) B := by
  cases h with
  | resident b data n h1 h2 h3 =>
    obtain ⟨f, l', x, s, v, u, r, hb⟩ := hl b (by rw [h1]; exact List.mem_singleton_self _)
    rw [h2] at hb
    cases hb
  | clusters h1 h2 h3 h4 h5 h6 h7 =>
    obtain ⟨f, last, x, s, v, u, r, hv⟩ := ha
    obtain ⟨kind, flags, name, value⟩ := a
    simp only at hv
    subst hv
    unfold merge
    have e : (attrOf length c ⟨kind, flags, name, .clusters f last x s v u r⟩).isResident = false := by simp [Attr.isResident, attrOf]
    have hg : R.get (attrOf length c ⟨kind, flags, name, .clusters f last x s v u r⟩).groups 0 = .ok (f, last, r.map Ntfs.kept) := rfl
    rw [R.require_true e, R.ok_bind, hg, R.ok_bind]
    refine ⟨_, rfl, ?_⟩
    have hgr : (takeSizes A (attrOf length c ⟨kind, flags, name, .clusters f last x s v u r⟩) f).groups = A.groups := by unfold takeSizes; split <;> rfl
    obtain ⟨b, hb, hbf⟩ := h4
    obtain ⟨d, hd, hds, hdf⟩ := h7
    refine .clusters (fun b hb => ?_) ?_ ?_ ⟨b, List.mem_append_left _ hb, ?_⟩ ?_ (sortGroups_sorted _) ?_
    · rcases List.mem_append.1 hb with hb | hb
      · exact h1 b hb
      · rw [List.mem_singleton.1 hb]; exact ⟨_, _, _, _, _, _, _, rfl⟩
    · rw [← h2]; unfold takeSizes; split <;> rfl
    · rw [← h3]; unfold takeSizes; split <;> rfl
    · rw [← hbf]; unfold takeSizes; split <;> rfl
    · refine (sortGroups_perm _).trans ?_
      rw [hgr, List.flatMap_append]
      exact h5.append (List.Perm.refl _)
    · by_cases h0 : f = 0
      · subst h0
        exact ⟨_, List.mem_append_right _ (List.mem_singleton_self _), ⟨0, last, x, s, v, u, r, rfl, rfl, rfl, rfl, rfl⟩, fun _ => ⟨last, x, s, v, u, r, rfl⟩⟩
      · refine ⟨d, List.mem_append_left _ hd, ?_, fun ⟨e, he, hef⟩ => hdf ?_⟩
        · rw [takeSizes, if_neg h0]; exact hds
        · rcases List.mem_append.1 he with he | he
          · exact ⟨e, he, hef⟩
          · rw [List.mem_singleton.1 he] at hef
            obtain ⟨_, _, _, _, _, _, hef⟩ := hef
            cases hef
            exact absurd rfl h0

/-! ## All attributes -/

/-- What is read of the standard information. -/
def standardOf (data : List Byte) : Standard :=
  ⟨time (field data 0 8), time (field data 8 8), time (field data 16 8), time (field data 24 8), field data 32 4, field data 36 4, field data 40 4,
    if 52 ≤ data.length then some (field data 48 4) else none⟩

def reparseOf : Spec.NtfsFs.Reparse → Reparse
  | .overlay m => .wof m
  | .junction => .junction
  | .link s d => .link s d
  | .other t => .other t

theorem readTime_ok {data : List Byte} {o : Nat} (h : o + 8 ≤ data.length) : readTime data o = .ok (time (field data o 8)) := by
  unfold readTime time
  rw [u64le_field h, R.ok_bind]; rfl

theorem readStandard_ok {a : Attribute} {data : List Byte} (h : a.value = .resident data) (hl : 48 ≤ data.length) (length c : Nat) :
    readStandard (attrOf length c a) = .ok (standardOf data) := by
  obtain ⟨kind, flags, name, value⟩ := a
  simp only at h
  subst h
  unfold readStandard
  have e : (attrOf length c ⟨kind, flags, name, .resident data⟩).isResident = true := by simp [Attr.isResident, attrOf]
  have e2 : (attrOf length c ⟨kind, flags, name, .resident data⟩).resident = data := rfl
  rw [R.require_true e, R.ok_bind, e2]
  simp only
  rw [R.require_true hl, R.ok_bind, readTime_ok (by omega), R.ok_bind, readTime_ok (by omega), R.ok_bind, readTime_ok (by omega), R.ok_bind,
    readTime_ok (by omega), R.ok_bind, u32le_field (by omega), R.ok_bind, u32le_field (by omega), R.ok_bind, u32le_field (by omega), R.ok_bind]
  have : readOwner data = .ok (if 52 ≤ data.length then some (field data 48 4) else none) := by
    unfold readOwner
    split
    · rw [u32le_field (by omega)]; rfl
    · rfl
  rw [this]; rfl

theorem linkName_ok {data : List Byte} {at_ : Nat} {name : List Nat} (hat : 8 + at_ + 4 ≤ data.length) (h : LinkName data (field data (8 + at_) 2) (field data (8 + at_ + 2) 2) name) :
    linkName (data.drop 8) at_ = .ok name := by
  obtain ⟨h1, h2, h3, h4, h5⟩ := h
  have hl : (data.drop 8).length = data.length - 8 := List.length_drop
  unfold linkName
  rw [u16_ok (by omega), R.ok_bind, u16_ok (by omega), R.ok_bind, field_drop, field_drop, show 8 + (at_ + 2) = 8 + at_ + 2 by omega,
    R.require_true (by omega), R.ok_bind, R.require_true (by omega), R.ok_bind, slice_bytesAt' rfl (by omega), R.ok_bind, bytesAt_drop,
    show 8 + (field data (8 + at_) 2 + 12) = 20 + field data (8 + at_) 2 by omega, Ucs2.readDataLe,
    Props.C15_decode_le _ (by rw [bytesAt_length (by omega)]; exact h1), R.ok_bind, h4, takeWhile_all h5]
  rfl

theorem readReparse_ok {a : Attribute} {data : List Byte} {r : Spec.NtfsFs.Reparse} (h : a.value = .resident data) (hr : ReparseAt data r) (length c : Nat) :
    readReparse (attrOf length c a) = .ok (reparseOf r) := by
  obtain ⟨kind, flags, name, value⟩ := a
  simp only at h
  subst h
  have h8 : 8 ≤ data.length := by cases hr <;> omega
  unfold readReparse
  have e : (attrOf length c ⟨kind, flags, name, .resident data⟩).isResident = true := by simp [Attr.isResident, attrOf]
  have e2 : (attrOf length c ⟨kind, flags, name, .resident data⟩).resident = data := rfl
  have hl : (data.drop 8).length = data.length - 8 := List.length_drop
  rw [R.require_true e, R.ok_bind, e2, R.require_true h8, R.ok_bind, u32le_field (by omega), R.ok_bind, slice_rest h8, R.ok_bind]
  unfold reparseData
  cases hr with
  | overlay h1 h2 =>
    rw [if_pos h1, R.require_true (by omega), R.ok_bind, u32le_field (by omega), R.ok_bind, field_drop]; rfl
  | junction h1 h2 => rw [h1, if_neg (by decide), if_pos rfl]; rfl
  | link h1 h2 h3 h4 =>
    rw [h1, if_neg (by decide), if_neg (by decide), if_pos rfl, R.require_true (by omega), R.ok_bind,
      linkName_ok (at_ := 0) (by omega) h3, R.ok_bind, linkName_ok (at_ := 4) (by omega) h4, R.ok_bind]; rfl
  | other h1 h2 h3 h4 => rw [if_neg h1, if_neg h2, if_neg h3]; rfl

theorem named_append (as : List Attribute) (a : Attribute) (n : Option (List Nat)) (k : Nat) :
    named (as ++ [a]) n k = named as n k ++ if a.name = n ∧ a.kind = k then [a] else [] := by
  unfold named
  rw [List.filter_append]
  congr 1
  by_cases h : a.name = n ∧ a.kind = k
  · rw [if_pos h, List.filter_cons, if_pos (decide_eq_true h)]; rfl
  · rw [if_neg h, List.filter_cons, if_neg (by simpa using h)]; rfl

theorem mem_named {as : List Attribute} {a : Attribute} {n : Option (List Nat)} {k : Nat} : a ∈ named as n k ↔ a ∈ as ∧ a.name = n ∧ a.kind = k := by
  unfold named; rw [List.mem_filter]; simp

theorem distinct_append (as : List Attribute) (a : Attribute) :
    distinct (as ++ [a]) = if a.kind ≠ 0x30 ∧ (a.name, a.kind) ∈ distinct as then distinct as else distinct as ++ [(a.name, a.kind)] := by
  unfold distinct; rw [List.foldl_append]; rfl

theorem mem_distinct (as : List Attribute) (n : Option (List Nat)) (k : Nat) : (n, k) ∈ distinct as ↔ named as n k ≠ [] := by
  induction as using List.reverseRecOn with
  | nil => simp [distinct, named]
  | append_singleton as a ih =>
    have hne : named (as ++ [a]) n k ≠ [] ↔ named as n k ≠ [] ∨ (if a.name = n ∧ a.kind = k then [a] else []) ≠ [] := by
      rw [named_append, ← Classical.not_and_iff_not_or_not, ← List.append_eq_nil_iff]
    rw [distinct_append, hne]
    split
    · rename_i h
      rw [ih]
      constructor
      · exact .inl
      · rintro (h' | h')
        · exact h'
        · by_cases hc : a.name = n ∧ a.kind = k
          · obtain ⟨rfl, rfl⟩ := hc
            exact ih.1 h.2
          · rw [if_neg hc] at h'; exact absurd rfl h'
    · rw [List.mem_append, ih, List.mem_singleton, Prod.mk.injEq]
      refine or_congr Iff.rfl ?_
      by_cases hc : a.name = n ∧ a.kind = k
      · rw [if_pos hc]; simp [hc.1, hc.2]
      · rw [if_neg hc]
        constructor
        · rintro ⟨h1, h2⟩; exact absurd ⟨h1.symm, h2.symm⟩ hc
        · intro h; exact absurd rfl h

theorem merge_same {self other new : Attr} (h : merge self other = .ok new) : new.name = self.name ∧ new.kind = self.kind := by
  unfold merge at h
  obtain ⟨_, -, h⟩ := R.bind_eq_ok.1 h
  obtain ⟨g, -, h⟩ := R.bind_eq_ok.1 h
  cases h
  unfold takeSizes
  split <;> exact ⟨rfl, rfl⟩

/-- What has been read after some attributes. -/
structure Inv (as : List Attribute) (attrs : Attrs) : Prop where
  none : ∀ n k, k ≠ 0x30 → named as n k = [] → attrs.find n k = none
  some : ∀ n k, k ≠ 0x30 → named as n k ≠ [] → ∃ i A, attrs.find n k = some i ∧ attrs.list[i]? = some A ∧ AttrIs (named as n k) A
  fileName : ∀ n, attrs.find n 0x30 = .none
  inj : ∀ n k n' k' i, attrs.find n k = .some i → attrs.find n' k' = .some i → n = n' ∧ k = k'
  names : ∀ n, attrs.names.contains n = true ↔ ∃ a ∈ as, a.name = n
  noList : (∀ a ∈ as, a.kind ≠ 0x20) → attrs.attributeList = .none
  list : ∀ a ∈ as, a.kind = 0x20 → attrs.attributeList = attrs.find a.name 0x20
  noStandard : (∀ a ∈ as, a.kind ≠ 0x10) → attrs.standard = .none
  standard : ∀ a ∈ as, a.kind = 0x10 → ∀ data, a.value = .resident data → attrs.standard = .some (standardOf data)
  noReparse : (∀ a ∈ as, a.kind ≠ 0xc0) → attrs.reparse = .none
  reparse : ∀ a ∈ as, a.kind = 0xc0 → ∀ data r, a.value = .resident data → ReparseAt data r → attrs.reparse = .some (reparseOf r)
  kinds : attrs.list.map (fun A => (A.name, A.kind)) = distinct as
  forks : attrs.dataAttributes.map (fun i => (attrs.list[i]?).map Attr.name) = ((distinct as).filter (·.2 = 0x80)).map fun x => .some x.1

theorem inv_empty : Inv [] .empty where
  none _ _ _ _ := rfl
  some _ _ _ h := absurd rfl h
  fileName _ := rfl
  inj _ _ _ _ _ h := by cases h
  names n := by simp [Attrs.empty]
  noList _ := rfl
  list _ h := by cases h
  noStandard _ := rfl
  standard _ h := by cases h
  noReparse _ := rfl
  reparse _ h := by cases h
  kinds := rfl
  forks := rfl

theorem find_range {as : List Attribute} {attrs : Attrs} (h : Inv as attrs) {n : Option (List Nat)} {k i : Nat} (hf : attrs.find n k = some i) :
    i < attrs.list.length := by
  by_cases hk : k = 0x30
  · subst hk; rw [h.fileName n] at hf; cases hf
  · by_cases he : named as n k = []
    · rw [h.none n k hk he] at hf; cases hf
    · obtain ⟨j, A, h1, h2, -⟩ := h.some n k hk he
      rw [hf] at h1; cases h1
      exact (List.getElem?_eq_some_iff.1 h2).1

theorem reparse_unique {data : List Byte} {r r' : Spec.NtfsFs.Reparse} (h : ReparseAt data r) (h' : ReparseAt data r') : r = r' := by
  cases h with
  | overlay h1 h2 => cases h' with
    | overlay => rfl
    | junction h1' => rw [h1] at h1'; cases h1'
    | link h1' => rw [h1] at h1'; cases h1'
    | other h1' => exact absurd h1 h1'
  | junction h1 h2 => cases h' with
    | overlay h1' => rw [h1] at h1'; cases h1'
    | junction => rfl
    | link h1' => rw [h1] at h1'; cases h1'
    | other _ h1' => exact absurd h1 h1'
  | link h1 h2 h3 h4 => cases h' with
    | overlay h1' => rw [h1] at h1'; cases h1'
    | junction h1' => rw [h1] at h1'; cases h1'
    | link h1' h2' h3' h4' => rw [← h3.2.2.2.1, ← h4.2.2.2.1, h3'.2.2.2.1, h4'.2.2.2.1]
    | other _ _ h1' => exact absurd h1 h1'
  | other h1 h2 h3 => cases h' with
    | overlay h1' => exact absurd h1' h1
    | junction h1' => exact absurd h1' h2
    | link h1' => exact absurd h1' h3
    | other => rfl

/-- The facts about the attributes that depend on the type. -/
structure Noted (as : List Attribute) (a : Attribute) (attrs attrs' : Attrs) : Prop where
  list : attrs'.list = attrs.list
  index : attrs'.index = attrs.index
  names : attrs'.names = attrs.names
  attributeList : attrs'.attributeList = if a.kind = 0x20 then some attrs.list.length else attrs.attributeList
  standard : attrs'.standard = attrs.standard ∨ a.kind = 0x10
  isStandard : a.kind = 0x10 → ∀ data, a.value = .resident data → attrs'.standard = some (standardOf data)
  reparse : attrs'.reparse = attrs.reparse ∨ a.kind = 0xc0
  isReparse : a.kind = 0xc0 → ∀ data r, a.value = .resident data → ReparseAt data r → attrs'.reparse = some (reparseOf r)
  forks : attrs'.dataAttributes = if a.kind = 0x80 then attrs.dataAttributes ++ [attrs.list.length] else attrs.dataAttributes

theorem noteKind_ok {as : List Attribute} {attrs : Attrs} {a : Attribute} (h : Inv as attrs) (hs : Sound (as ++ [a])) (length c : Nat) :
    ∃ attrs', noteKind (attrs.addName a.name) (attrOf length c a) = .ok attrs' ∧ Noted as a (attrs.addName a.name) attrs' := by
  have hkind : (attrOf length c a).kind = a.kind := by unfold attrOf; split <;> rfl
  have hsingle := fun b hb => (List.pairwise_append.1 hs.single).2.2 b hb a (List.mem_singleton_self a)
  have hname : (attrs.addName a.name).list = attrs.list ∧ (attrs.addName a.name).attributeList = attrs.attributeList ∧
      (attrs.addName a.name).standard = attrs.standard ∧ (attrs.addName a.name).reparse = attrs.reparse := by
    unfold Attrs.addName; split <;> exact ⟨rfl, rfl, rfl, rfl⟩
  obtain ⟨n1, n2, n3, n4⟩ := hname
  unfold noteKind
  rw [hkind]
  by_cases k1 : a.kind = 0x20
  · rw [if_pos k1, R.require_true (by
      rw [n2]; exact h.noList fun b hb e => (hsingle b hb (e.trans k1.symm)).2.1 e), R.ok_bind]
    exact ⟨_, rfl, rfl, rfl, rfl, by rw [if_pos k1], .inl rfl, fun e => by omega, .inl rfl, fun e => by omega, by rw [if_neg (by omega)]⟩
  rw [if_neg k1]
  by_cases k2 : a.kind = 0x80
  · rw [if_pos k2]
    exact ⟨_, rfl, rfl, rfl, rfl, by rw [if_neg k1], .inl rfl, fun e => by omega, .inl rfl, fun e => by omega, by rw [if_pos k2]⟩
  rw [if_neg k2]
  by_cases k3 : a.kind = 0xc0
  · obtain ⟨data, r, hd, hr⟩ := hs.reparse a (List.mem_append_right _ (List.mem_singleton_self _)) k3
    rw [if_pos k3, R.require_true (by
      rw [n4]; exact h.noReparse fun b hb e => (hsingle b hb (e.trans k3.symm)).2.2 e), R.ok_bind, readReparse_ok hd hr, R.ok_bind]
    refine ⟨_, rfl, rfl, rfl, rfl, by rw [if_neg k1], .inl rfl, fun e => by omega, .inr k3, fun _ data' r' hd' hr' => ?_, by rw [if_neg k2]⟩
    rw [hd] at hd'; cases hd'
    rw [reparse_unique hr' hr]
  rw [if_neg k3]
  by_cases k4 : a.kind = 0x10
  · obtain ⟨data, hd, hl⟩ := hs.standard a (List.mem_append_right _ (List.mem_singleton_self _)) k4
    rw [if_pos k4, R.require_true (by
      rw [n3]; exact h.noStandard fun b hb e => (hsingle b hb (e.trans k4.symm)).1 e), R.ok_bind, readStandard_ok hd hl, R.ok_bind]
    refine ⟨_, rfl, rfl, rfl, rfl, by rw [if_neg k1], .inr k4, fun _ data' hd' => ?_, .inl rfl, fun e => by omega, by rw [if_neg k2]⟩
    rw [hd] at hd'; cases hd'; rfl
  rw [if_neg k4]
  exact ⟨_, rfl, rfl, rfl, rfl, by rw [if_neg k1], .inl rfl, fun e => by omega, .inl rfl, fun e => by omega, by rw [if_neg k2]⟩

theorem addName_names (attrs : Attrs) (n m : Option (List Nat)) :
    (attrs.addName n).names.contains m = true ↔ attrs.names.contains m = true ∨ n = m := by
  unfold Attrs.addName
  split
  · rename_i h
    constructor
    · exact .inl
    · rintro (h' | rfl)
      · exact h'
      · exact h
  · rw [List.contains_iff_mem, List.contains_iff_mem, List.mem_append, List.mem_singleton, eq_comm (a := m)]

/-- An attribute is added. -/
theorem add_ok {as : List Attribute} {attrs : Attrs} {a : Attribute} (h : Inv as attrs) (hs : Sound (as ++ [a])) (length c : Nat) :
    ∃ attrs', attrs.add (attrOf length c a) = .ok attrs' ∧ Inv (as ++ [a]) attrs' := by
  have hkind : (attrOf length c a).kind = a.kind := by unfold attrOf; split <;> rfl
  have hname : (attrOf length c a).name = a.name := by unfold attrOf; split <;> rfl
  have hsingle := fun b hb => (List.pairwise_append.1 hs.single).2.2 b hb a (List.mem_singleton_self a)
  have hpieces := fun b hb => (List.pairwise_append.1 hs.pieces).2.2 b hb a (List.mem_singleton_self a)
  have hn : (attrs.addName a.name).list = attrs.list ∧ (attrs.addName a.name).index = attrs.index ∧ (attrs.addName a.name).attributeList = attrs.attributeList ∧
      (attrs.addName a.name).standard = attrs.standard ∧ (attrs.addName a.name).reparse = attrs.reparse ∧
      (attrs.addName a.name).dataAttributes = attrs.dataAttributes := by
    unfold Attrs.addName; split <;> exact ⟨rfl, rfl, rfl, rfl, rfl, rfl⟩
  obtain ⟨n1, n2, n3, n4, n5, n6⟩ := hn
  have hinside : ∀ i ∈ attrs.dataAttributes, i < attrs.list.length := by
    intro i hi
    have : (attrs.list[i]?).map Attr.name ∈ attrs.dataAttributes.map (fun i => (attrs.list[i]?).map Attr.name) := List.mem_map_of_mem hi
    rw [h.forks] at this
    obtain ⟨x, -, hx⟩ := List.mem_map.1 this
    by_contra hge
    rw [List.getElem?_eq_none (by omega)] at hx
    cases hx
  have hnames : ∀ m, (attrs.addName a.name).names.contains m = true ↔ ∃ b ∈ as ++ [a], b.name = m := by
    intro m
    rw [addName_names, h.names]
    constructor
    · rintro (⟨b, hb, e⟩ | e)
      · exact ⟨b, List.mem_append_left _ hb, e⟩
      · exact ⟨a, List.mem_append_right _ (List.mem_singleton_self _), e⟩
    · rintro ⟨b, hb, e⟩
      rcases List.mem_append.1 hb with hb | hb
      · exact .inl ⟨b, hb, e⟩
      · rw [List.mem_singleton.1 hb] at e; exact .inr e
  unfold Attrs.add
  rw [hkind, hname]
  by_cases hnew : a.kind = 0x30 ∨ named as a.name a.kind = []
  · have hfind : attrs.find a.name a.kind = none := by
      by_cases hk : a.kind = 0x30
      · rw [hk]; exact h.fileName _
      · exact h.none _ _ hk (hnew.resolve_left hk)
    rw [hfind]
    simp only
    obtain ⟨at1, e1, m1, m2, m3, m4, m5, m6, m7, m8, m9⟩ := noteKind_ok h hs length c
    rw [e1, R.ok_bind]
    refine ⟨_, rfl, ?_⟩
    rw [n1] at m1 m4 m9
    rw [n6] at m9
    have hdis : distinct (as ++ [a]) = distinct as ++ [(a.name, a.kind)] := by
      rw [distinct_append, if_neg]
      rintro ⟨g1, g2⟩
      exact (mem_distinct as a.name a.kind).1 g2 (hnew.resolve_left g1)
    rw [n2] at m2
    rw [n4] at m5
    rw [n5] at m7
    rw [n3] at m4
    have hpf : ∀ n k, (at1.push (attrOf length c a)).find n k = (attrs.find n k).or (if a.kind ≠ 0x30 ∧ a.name = n ∧ a.kind = k then some attrs.list.length else none) := by
      intro n k
      unfold Attrs.push Attrs.find
      simp only
      rw [hkind, hname, m1, m2]
      by_cases hk : a.kind = 0x30
      · rw [if_pos hk, if_neg (by simp [hk])]; simp
      · rw [if_neg hk, List.find?_append]
        cases hcase : List.find? (fun e => decide (e.1 = n ∧ e.2.1 = k)) attrs.index with
        | some x => simp
        | none =>
          by_cases hh : a.name = n ∧ a.kind = k
          · simp [hh.1, hh.2, hk, List.find?]
            exact fun e => hk (hh.2.trans e)
          · rw [if_neg (fun g => hh g.2)]; simp [List.find?, hh]
    have hpl : (at1.push (attrOf length c a)).list = attrs.list ++ [attrOf length c a] := by unfold Attrs.push; simp only; rw [m1]
    have hold : ∀ n k, ¬ (a.kind ≠ 0x30 ∧ a.name = n ∧ a.kind = k) → (at1.push (attrOf length c a)).find n k = attrs.find n k := by
      intro n k hh; rw [hpf, if_neg hh]; simp
    have hthis : a.kind ≠ 0x30 → (at1.push (attrOf length c a)).find a.name a.kind = some attrs.list.length := by
      intro hk; rw [hpf, hfind, if_pos ⟨hk, rfl, rfl⟩]; rfl
    have hsome : ∀ n k i, attrs.find n k = some i → (at1.push (attrOf length c a)).find n k = some i := by
      intro n k i hf; rw [hpf, hf]; rfl
    refine ⟨fun n k hk he => ?_, fun n k hk he => ?_, fun n => ?_, fun n k n' k' i hf hf' => ?_, fun n => ?_, fun hno => ?_, fun b hb hb2 => ?_,
      fun hno => ?_, fun b hb hb2 data hd => ?_, fun hno => ?_, fun b hb hb2 data r hd hr => ?_, ?_, ?_⟩
    · rw [named_append] at he
      obtain ⟨he1, he2⟩ := List.append_eq_nil_iff.1 he
      rw [hold n k (fun g => by rw [if_pos g.2] at he2; cases he2)]
      exact h.none n k hk he1
    · rw [named_append] at he ⊢
      by_cases hh : a.name = n ∧ a.kind = k
      · obtain ⟨rfl, rfl⟩ := hh
        rw [hnew.resolve_left hk, if_pos ⟨rfl, rfl⟩]
        exact ⟨_, _, hthis hk, by rw [hpl]; simp, attrIs_one a length c⟩
      · rw [if_neg hh, List.append_nil] at he ⊢
        obtain ⟨i, A, e1, e2, e3⟩ := h.some n k hk he
        refine ⟨i, A, hsome n k i e1, ?_, e3⟩
        rw [hpl, List.getElem?_append_left (find_range h e1)]; exact e2
    · rw [hold n 0x30 (fun g => g.1 g.2.2)]; exact h.fileName n
    · have hcase : ∀ n k, (at1.push (attrOf length c a)).find n k = some i → attrs.find n k = some i ∨ (i = attrs.list.length ∧ a.name = n ∧ a.kind = k) := by
        intro n k hf
        by_cases hh : a.kind ≠ 0x30 ∧ a.name = n ∧ a.kind = k
        · obtain ⟨hk, rfl, rfl⟩ := hh
          rw [hthis hk] at hf; cases hf; exact .inr ⟨rfl, rfl, rfl⟩
        · rw [hold n k hh] at hf; exact .inl hf
      rcases hcase n k hf with g | ⟨g1, g2, g3⟩ <;> rcases hcase n' k' hf' with g' | ⟨g1', g2', g3'⟩
      · exact h.inj n k n' k' i g g'
      · have := find_range h g; omega
      · have := find_range h g'; omega
      · exact ⟨g2.symm.trans g2', g3.symm.trans g3'⟩
    · rw [← hnames n, ← m3]; rfl
    · have : (at1.push (attrOf length c a)).attributeList = at1.attributeList := rfl
      rw [this, m4, if_neg (hno a (List.mem_append_right _ (List.mem_singleton_self _)))]
      exact h.noList fun b hb => hno b (List.mem_append_left _ hb)
    · have e0 : (at1.push (attrOf length c a)).attributeList = at1.attributeList := rfl
      rw [e0, m4]
      rcases List.mem_append.1 hb with hb | hb
      · have hne : a.kind ≠ 0x20 := fun e => (hsingle b hb (hb2.trans e.symm)).2.1 hb2
        rw [if_neg hne, h.list b hb hb2]
        rw [hold b.name 0x20 (fun g => hne g.2.2)]
      · rw [List.mem_singleton.1 hb] at hb2 ⊢
        rw [if_pos hb2, ← hb2, hthis (by omega)]
    · have e0 : (at1.push (attrOf length c a)).standard = at1.standard := rfl
      rw [e0, m5.resolve_right (hno a (List.mem_append_right _ (List.mem_singleton_self _)))]
      exact h.noStandard fun b hb => hno b (List.mem_append_left _ hb)
    · have e0 : (at1.push (attrOf length c a)).standard = at1.standard := rfl
      rw [e0]
      rcases List.mem_append.1 hb with hb | hb
      · rw [m5.resolve_right fun e => (hsingle b hb (hb2.trans e.symm)).1 hb2]
        exact h.standard b hb hb2 data hd
      · rw [List.mem_singleton.1 hb] at hb2 hd
        exact m6 hb2 data hd
    · have e0 : (at1.push (attrOf length c a)).reparse = at1.reparse := rfl
      rw [e0, m7.resolve_right (hno a (List.mem_append_right _ (List.mem_singleton_self _)))]
      exact h.noReparse fun b hb => hno b (List.mem_append_left _ hb)
    · have e0 : (at1.push (attrOf length c a)).reparse = at1.reparse := rfl
      rw [e0]
      rcases List.mem_append.1 hb with hb | hb
      · rw [m7.resolve_right fun e => (hsingle b hb (hb2.trans e.symm)).2.2 hb2]
        exact h.reparse b hb hb2 data r hd hr
      · rw [List.mem_singleton.1 hb] at hb2 hd
        exact m8 hb2 data r hd hr
    · rw [hpl, List.map_append, h.kinds, hdis, List.map_cons, List.map_nil, hname, hkind]
    · have e0 : (at1.push (attrOf length c a)).dataAttributes = at1.dataAttributes := rfl
      have hmap : attrs.dataAttributes.map (fun i => ((attrs.list ++ [attrOf length c a])[i]?).map Attr.name) =
          attrs.dataAttributes.map (fun i => (attrs.list[i]?).map Attr.name) :=
        List.map_congr_left fun i hi => by rw [List.getElem?_append_left (hinside i hi)]
      rw [e0, m9, hpl, hdis, List.filter_append, List.map_append, ← h.forks]
      by_cases h80 : a.kind = 0x80
      · rw [if_pos h80, List.map_append, hmap, List.filter_cons, if_pos (by simpa using h80)]
        simp [hname]
      · rw [if_neg h80, hmap, List.filter_cons, if_neg (by simpa using h80)]
        simp
  · have hk : a.kind ≠ 0x30 := fun e => hnew (.inl e)
    have he : named as a.name a.kind ≠ [] := fun e => hnew (.inr e)
    obtain ⟨i, A, e1, e2, e3⟩ := h.some _ _ hk he
    have hcl : ∀ b ∈ named as a.name a.kind, InClusters b ∧ InClusters a := by
      intro b hb
      obtain ⟨hb1, hb2, hb3⟩ := mem_named.1 hb
      exact hpieces b hb1 hb2 hb3 (by omega)
    obtain ⟨b0, hb0⟩ := List.exists_mem_of_ne_nil _ he
    obtain ⟨B, hm, hB⟩ := merge_ok e3 (fun b hb => (hcl b hb).1) he (hcl b0 hb0).2 length c
    have hsame := merge_same hm
    have hdis : distinct (as ++ [a]) = distinct as := by
      rw [distinct_append, if_pos ⟨hk, (mem_distinct as a.name a.kind).2 he⟩]
    have hb0k := hsingle b0 (mem_named.1 hb0).1 (mem_named.1 hb0).2.2
    rw [(mem_named.1 hb0).2.2] at hb0k
    rw [e1]
    simp only
    rw [e2]
    have hor : Fat.orErr (some A) = R.ok A := rfl
    rw [hor, R.ok_bind, hm, R.ok_bind]
    refine ⟨_, rfl, ?_⟩
    have hlt := find_range h e1
    have hfe : ∀ n k, Attrs.find { attrs.addName a.name with list := attrs.list.set i B } n k = attrs.find n k := by
      intro n k; unfold Attrs.find; rw [← n2]
    refine ⟨fun n k hk' hh => ?_, fun n k hk' hh => ?_, fun n => ?_, fun n k n' k' j hf hf' => ?_, hnames, fun hno => ?_, fun b hb hb2 => ?_,
      fun hno => ?_, fun b hb hb2 data hd => ?_, fun hno => ?_, fun b hb hb2 data r hd hr => ?_, ?_, ?_⟩
    · rw [named_append] at hh
      rw [hfe]
      exact h.none n k hk' (List.append_eq_nil_iff.1 hh).1
    · rw [named_append] at hh ⊢
      rw [hfe]
      by_cases hc : a.name = n ∧ a.kind = k
      · obtain ⟨rfl, rfl⟩ := hc
        rw [if_pos ⟨rfl, rfl⟩]
        exact ⟨i, B, e1, by simp [hlt], hB⟩
      · rw [if_neg hc, List.append_nil] at hh ⊢
        obtain ⟨j, C, f1, f2, f3⟩ := h.some n k hk' hh
        have hij : i ≠ j := fun e => hc (by subst e; exact h.inj _ _ _ _ _ e1 f1)
        refine ⟨j, C, f1, ?_, f3⟩
        simp only
        rw [List.getElem?_set_ne hij]; exact f2
    · rw [hfe]; exact h.fileName n
    · rw [hfe] at hf hf'; exact h.inj n k n' k' j hf hf'
    · exact n3.trans (h.noList fun b hb => hno b (List.mem_append_left _ hb))
    · rw [hfe]
      rcases List.mem_append.1 hb with hb | hb
      · exact n3.trans (h.list b hb hb2)
      · rw [List.mem_singleton.1 hb] at hb2; exact absurd hb2 hb0k.2.1
    · exact n4.trans (h.noStandard fun b hb => hno b (List.mem_append_left _ hb))
    · rcases List.mem_append.1 hb with hb | hb
      · exact n4.trans (h.standard b hb hb2 data hd)
      · rw [List.mem_singleton.1 hb] at hb2; exact absurd hb2 hb0k.1
    · exact n5.trans (h.noReparse fun b hb => hno b (List.mem_append_left _ hb))
    · rcases List.mem_append.1 hb with hb | hb
      · exact n5.trans (h.reparse b hb hb2 data r hd hr)
      · rw [List.mem_singleton.1 hb] at hb2; exact absurd hb2 hb0k.2.2
    · simp only
      rw [List.map_set, h.kinds, hdis]
      refine List.ext_getElem? fun j => ?_
      by_cases hj : i = j
      · subst hj
        rw [List.getElem?_set_self (by rw [← h.kinds, List.length_map]; exact hlt), ← h.kinds, List.getElem?_map, e2, hsame.1, hsame.2]; rfl
      · rw [List.getElem?_set_ne hj]
    · have e0 : ({ attrs.addName a.name with list := attrs.list.set i B } : Attrs).dataAttributes = attrs.dataAttributes := n6
      rw [e0, hdis, ← h.forks]
      refine List.map_congr_left fun j hj => ?_
      simp only
      by_cases hj : i = j
      · subst hj
        rw [List.getElem?_set_self hlt, e2]
        simp [hsame.1]
      · rw [List.getElem?_set_ne hj]

theorem sound_left {as bs : List Attribute} (h : Sound (as ++ bs)) : Sound as :=
  ⟨(List.pairwise_append.1 h.pieces).1, (List.pairwise_append.1 h.single).1, fun a ha => h.standard a (List.mem_append_left _ ha),
    fun a ha => h.reparse a (List.mem_append_left _ ha)⟩

theorem attribute_size {record : List Byte} {o length : Nat} {a : Attribute} (h : AttributeAt record o length a) : 24 ≤ length := by
  have hv := h.value
  cases e : a.value with
  | resident data => rw [e] at hv; exact hv.2.1
  | clusters first last allocated size valid unit runs => rw [e] at hv; have := hv.2.1; omega

theorem leNat_ff {l : List Byte} (h : l = [0xff#8, 0xff#8, 0xff#8, 0xff#8]) : leNat l = 0xffffffff := by subst h; rfl

theorem attrsLoop_ok {record : List Byte} (hl : record.length < 2 ^ 32) {o : Nat} {bs : List Attribute} (h : AttributesAt record o bs) {as : List Attribute} {attrs : Attrs}
    (hi : Inv as attrs) (hs : Sound (as ++ bs)) (fuel : Nat) (hf : record.length < fuel + o) :
    ∃ attrs', attrsLoop record fuel o attrs = .ok attrs' ∧ Inv (as ++ bs) attrs' := by
  induction h generalizing as attrs fuel with
  | @last o h1 h2 =>
    obtain ⟨fuel, rfl⟩ : ∃ n, fuel = n + 1 := ⟨fuel - 1, by omega⟩
    rw [attrsLoop, R.subU_ok (by omega), R.ok_bind, R.require_true (by omega), R.ok_bind, slice_bytesAt' (n := 4) rfl (by omega), R.ok_bind, h2, if_pos rfl,
      List.append_nil]
    exact ⟨_, rfl, hi⟩
  | @next o length a bs h1 h2 ih =>
    have h24 := attribute_size h1
    have hin := h1.inside
    obtain ⟨fuel, rfl⟩ : ∃ n, fuel = n + 1 := ⟨fuel - 1, by omega⟩
    obtain ⟨c, hc⟩ := readAttr_ok h1 hl
    have hs' : Sound (as ++ [a] ++ bs) := by rw [List.append_assoc]; exact hs
    obtain ⟨attrs', ha, hi'⟩ := add_ok hi (sound_left hs') length c
    have hsz : (attrOf length c a).size = length := by unfold attrOf; split <;> rfl
    rw [attrsLoop, R.subU_ok (by omega), R.ok_bind, R.require_true (by omega), R.ok_bind, slice_bytesAt' (n := 4) rfl (by omega), R.ok_bind,
      if_neg (fun e => h1.notLast (h1.kind.symm.trans (leNat_ff e))), slice_rest (by omega), R.ok_bind, hc, R.ok_bind, ha, R.ok_bind, hsz]
    obtain ⟨attrs'', e, hi''⟩ := ih hi' hs' fuel (by omega)
    exact ⟨attrs'', e, by rw [List.append_assoc] at hi''; exact hi''⟩

/-! ## What is found -/

theorem get_none {as : List Attribute} {attrs : Attrs} (h : Inv as attrs) {n : Option (List Nat)} {k : Nat} (hk : k ≠ 0x30) (hn : named as n k = []) :
    attrs.get n k = none := by
  unfold Attrs.get; rw [h.none n k hk hn]; rfl

theorem get_some {as : List Attribute} {attrs : Attrs} (h : Inv as attrs) {n : Option (List Nat)} {k : Nat} (hk : k ≠ 0x30) (hn : named as n k ≠ []) :
    ∃ A, attrs.get n k = some A ∧ AttrIs (named as n k) A := by
  obtain ⟨i, A, h1, h2, h3⟩ := h.some n k hk hn
  exact ⟨A, by unfold Attrs.get; rw [h1]; exact h2, h3⟩

theorem get_resident {as : List Attribute} {attrs : Attrs} (h : Inv as attrs) {n : Option (List Nat)} {k flags : Nat} {data : List Byte} (hk : k ≠ 0x30)
    (hr : Resident as n k flags data) : ∃ length, attrs.get n k = some (attrOf length 0 ⟨k, flags, n, .resident data⟩) := by
  obtain ⟨A, h1, h2⟩ := get_some h hk (by rw [hr]; simp)
  rw [hr] at h2
  cases h2 with
  | resident a data' length e1 e2 e3 =>
    obtain rfl := List.singleton_inj.1 e1
    exact ⟨length, by rw [h1, e3]⟩
  | clusters e1 =>
    obtain ⟨_, _, _, _, _, _, _, e⟩ := e1 _ (List.mem_singleton_self _)
    cases e

def groupOf (p : Piece) : Nat × Nat × List DataRun := (p.first, p.last, p.runs.map Ntfs.kept)

/-- What is kept of an attribute in clusters. -/
structure Kept (A : Attr) (flags : Nat) (p : Piece) (ps : List Piece) : Prop where
  nonResident : A.nonResident = 1#8
  resident : A.resident = []
  flags : A.flags = flags
  groups : A.groups = (p :: ps).map groupOf
  allocated : A.allocated = p.allocated
  size : A.dataSize = p.size
  valid : A.validSize = p.valid
  unit : A.unit = if p.unit = 0 then 0 else 2 ^ p.unit

theorem get_clusters {as : List Attribute} {attrs : Attrs} (h : Inv as attrs) {n : Option (List Nat)} {k flags : Nat} {p : Piece} {ps : List Piece} (hk : k ≠ 0x30)
    (hc : Clusters as n k flags p ps) : ∃ A, attrs.get n k = some A ∧ Kept A flags p ps := by
  obtain ⟨hperm, h0, hpw, -⟩ := hc
  obtain ⟨A, h1, h2⟩ := get_some h hk (fun e => by rw [e] at hperm; exact absurd hperm.symm.eq_nil (by simp))
  refine ⟨A, h1, ?_⟩
  have hmem : ∀ a, a ∈ named as n k ↔ ∃ q ∈ p :: ps, Piece.attribute k flags n q = a := fun a => by rw [hperm.mem_iff, List.mem_map]
  cases h2 with
  | resident a data length e1 e2 e3 =>
    obtain ⟨q, -, hq⟩ := (hmem a).1 (by rw [e1]; exact List.mem_singleton_self _)
    rw [← hq] at e2; cases e2
  | clusters c1 c2 c3 c4 c5 c6 c7 =>
    obtain ⟨a, ha, haf⟩ := c4
    obtain ⟨q, -, rfl⟩ := (hmem a).1 ha
    obtain ⟨b, hb, ⟨f, l, x, s, v, u, r, hv, s1, s2, s3, s4⟩, hfirst⟩ := c7
    obtain ⟨w, hw, rfl⟩ := (hmem b).1 hb
    have hwf : IsFirst (Piece.attribute k flags n w) := hfirst ⟨Piece.attribute k flags n p, (hmem _).2 ⟨p, List.mem_cons_self, rfl⟩,
      ⟨p.last, p.allocated, p.size, p.valid, p.unit, p.runs, by rw [Piece.attribute, h0]⟩⟩
    obtain ⟨_, _, _, _, _, _, hwv⟩ := hwf
    have hw0 : w.first = 0 := by
      unfold Piece.attribute at hwv; simp only [Value.clusters.injEq] at hwv; exact hwv.1
    have hwp : w = p := by
      rcases List.mem_cons.1 hw with rfl | hw
      · rfl
      · have := (List.pairwise_cons.1 hpw).1 w hw; omega
    subst hwp
    unfold Piece.attribute at hv
    simp only [Value.clusters.injEq] at hv
    obtain ⟨-, -, v3, v4, v5, v6, -⟩ := hv
    refine ⟨c2, c3, haf, ?_, by rw [s1, v3], by rw [s2, v4], by rw [s3, v5], by rw [s4, v6]⟩
    have hgp : A.groups.Perm ((w :: ps).map groupOf) := by
      refine c5.trans ((hperm.flatMap_right groupsOf).trans ?_)
      rw [List.flatMap_map]
      have : (fun q => groupsOf (Piece.attribute k flags n q)) = fun q => [groupOf q] := rfl
      rw [this, ← List.map_eq_flatMap]
    have hlt : ((w :: ps).map groupOf).Pairwise (fun a b => a.1 < b.1) := List.pairwise_map.2 hpw
    refine hgp.eq_of_pairwise (le := fun a b => a.1 ≤ b.1) (fun a b ha hb h1 h2 => ?_) c6 (hlt.imp fun h => Nat.le_of_lt h)
    have ha := hgp.mem_iff.1 ha
    by_contra hne
    rcases List.pairwise_iff_getElem.1 hlt with hg
    obtain ⟨i, hi, rfl⟩ := List.getElem_of_mem ha
    obtain ⟨j, hj, rfl⟩ := List.getElem_of_mem hb
    rcases Nat.lt_trichotomy i j with g | g | g
    · have := hg i j hi hj g; omega
    · subst g; exact hne rfl
    · have := hg j i hj hi g; omega

end Keramics.NtfsFs
