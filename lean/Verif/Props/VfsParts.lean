import Verif.Model.VfsParts
import Verif.Props.Volumes

/-!
# C68: the partitions and layers of volume systems and images in the VFS
-/

namespace Keramics.VfsParts
open Spec (PartsKind IsDecimal IsPartName)

theorem digitChar_toNat {d : Nat} (h : d < 10) : (Nat.digitChar d).toNat = 48 + d := by
  have : ∀ d, d < 10 → (Nat.digitChar d).toNat = 48 + d := by decide
  exact this d h

/-- The decimal text of a number. -/
theorem decimal_spec (n : Nat) : IsDecimal (decimal n) n ∧ (n ≠ 0 → (decimal n).head? ≠ some 48) := by
  induction n using Nat.strongRecOn with
  | _ n ih =>
    unfold decimal
    by_cases hn : n < 10
    · rw [Nat.toDigits_of_lt_base hn]
      refine ⟨⟨by simp, ?_, ?_⟩, ?_⟩
      · intro c hc
        simp only [List.map_cons, List.map_nil, List.mem_singleton] at hc
        rw [hc, digitChar_toNat hn]
        omega
      · simp only [List.map_cons, List.map_nil, List.foldl_cons, List.foldl_nil, digitChar_toNat hn]
        omega
      · intro h0
        simp only [List.map_cons, List.map_nil, List.head?_cons, digitChar_toNat hn, ne_eq, Option.some.injEq]
        omega
    · rw [Nat.toDigits_of_base_le (by omega) (by omega)]
      obtain ⟨⟨h1, h2, h3⟩, h4⟩ := ih (n / 10) (by omega)
      unfold decimal at h1 h2 h3 h4
      have hd := digitChar_toNat (Nat.mod_lt n (show 10 > 0 by omega))
      refine ⟨⟨by simp, ?_, ?_⟩, ?_⟩
      · intro c hc
        rw [List.map_append, List.mem_append] at hc
        rcases hc with hc | hc
        · exact h2 c hc
        · simp only [List.map_cons, List.map_nil, List.mem_singleton] at hc
          rw [hc, hd]
          omega
      · simp only [List.map_append, List.foldl_append, h3, List.map_cons, List.map_nil, List.foldl_cons, List.foldl_nil, hd]
        omega
      · intro _
        rw [List.map_append, List.head?_append_of_ne_nil _ h1]
        exact h4 (by omega)

theorem foldl_ge (cs : List Nat) (v : Nat) : v ≤ cs.foldl (fun v c => v * 10 + (c - 48)) v := by
  induction cs generalizing v with
  | nil => exact Nat.le_refl v
  | cons c cs ih => exact Nat.le_trans (by omega) (ih (v * 10 + (c - 48)))

theorem parseDigits_iff (cs : List Nat) (v n : Nat) (hv : v < 2 ^ 64) :
    parseDigits cs v = some n ↔ (∀ c ∈ cs, 48 ≤ c ∧ c ≤ 57) ∧ cs.foldl (fun v c => v * 10 + (c - 48)) v = n ∧ n < 2 ^ 64 := by
  induction cs generalizing v with
  | nil =>
    simp only [parseDigits, Option.some.injEq, List.not_mem_nil, false_implies, implies_true, List.foldl_nil, true_and]
    constructor
    · rintro rfl; exact ⟨rfl, hv⟩
    · exact fun h => h.1
  | cons c cs ih =>
    simp only [parseDigits, List.mem_cons, forall_eq_or_imp, List.foldl_cons]
    by_cases hc : 48 ≤ c ∧ c ≤ 57
    · rw [if_pos hc]
      by_cases hb : v * 10 + (c - 48) < 2 ^ 64
      · rw [if_pos hb, ih _ hb]
        exact ⟨fun ⟨a, b⟩ => ⟨⟨hc, a⟩, b⟩, fun ⟨⟨_, a⟩, b⟩ => ⟨a, b⟩⟩
      · rw [if_neg hb]
        refine ⟨nofun, fun ⟨_, h1, h2⟩ => ?_⟩
        have := foldl_ge cs (v * 10 + (c - 48))
        omega
    · rw [if_neg hc]
      exact ⟨nofun, fun h => absurd h.1.1 hc⟩

/-- What is parsed as a number: digits, with or without a plus sign. -/
theorem parse_iff (text : List Nat) (n : Nat) :
    parse text = some n ↔ n < 2 ^ 64 ∧ (IsDecimal text n ∨ ∃ digits, text = 43 :: digits ∧ IsDecimal digits n) := by
  unfold parse
  split
  · refine ⟨nofun, ?_⟩
    rintro ⟨-, h | ⟨d, h, -⟩⟩
    · exact absurd rfl h.1
    · cases h
  · rename_i rest
    have hno : ∀ m, ¬ IsDecimal (43 :: rest) m := fun m h => by have := h.2.1 43 (by simp); omega
    by_cases hr : rest = []
    · rw [if_pos hr]
      refine ⟨nofun, ?_⟩
      rintro ⟨-, h | ⟨d, h, h2⟩⟩
      · exact absurd h (hno n)
      · cases h
        exact absurd hr h2.1
    · rw [if_neg hr, parseDigits_iff _ _ _ (by decide)]
      constructor
      · rintro ⟨a, b, c⟩
        exact ⟨c, .inr ⟨rest, rfl, hr, a, b⟩⟩
      · rintro ⟨c, h | ⟨d, h, h2⟩⟩
        · exact absurd h (hno n)
        · cases h
          exact ⟨h2.2.1, h2.2.2, c⟩
  · rename_i h1 h2
    rw [parseDigits_iff _ _ _ (by decide)]
    constructor
    · rintro ⟨a, b, c⟩
      exact ⟨c, .inl ⟨h1, a, b⟩⟩
    · rintro ⟨c, h | ⟨d, h, -⟩⟩
      · exact ⟨h.2.1, h.2.2, c⟩
      · exact absurd h (h2 d)

theorem label_eq (k : PartsKind) : label k = k.label := by cases k <;> rfl

theorem skipped_eq (k : PartsKind) (h : ¬ k.OneLayer) : skipped k = k.label.length := by
  cases k <;> first | rfl | exact absurd (by simp [PartsKind.OneLayer]) h

theorem label_slash (k : PartsKind) : 0x2f ∉ k.label := by cases k <;> decide

/-- The partition or layer with a name. -/
theorem numbered_iff {D : Type} (s : System D) (h : ¬ s.kind.OneLayer) (nm : List Nat) (i : Nat) :
    numbered s nm = some i ↔ i < s.number ∧ i + 1 < 2 ^ 64 ∧ ∃ digits, (nm = s.kind.label ++ digits ∨ nm = s.kind.label ++ 43 :: digits) ∧ IsDecimal digits (i + 1) := by
  unfold numbered
  rw [label_eq, skipped_eq _ h]
  by_cases hp : s.kind.label.isPrefixOf nm
  · obtain ⟨rest, rfl⟩ := List.isPrefixOf_iff_prefix.1 hp
    rw [if_neg (by simp [hp]), List.drop_left]
    have key : ∀ n, parse rest = some n ↔ n < 2 ^ 64 ∧ ∃ digits, (s.kind.label ++ rest = s.kind.label ++ digits ∨ s.kind.label ++ rest = s.kind.label ++ 43 :: digits) ∧ IsDecimal digits n := by
      intro n
      rw [parse_iff]
      simp only [List.append_cancel_left_eq]
      constructor
      · rintro ⟨a, b | ⟨d, b, c⟩⟩
        · exact ⟨a, rest, .inl rfl, b⟩
        · exact ⟨a, d, .inr b, c⟩
      · rintro ⟨a, d, b | b, c⟩
        · exact ⟨a, .inl (b ▸ c)⟩
        · exact ⟨a, .inr ⟨d, b, c⟩⟩
    rw [← key (i + 1)]
    cases hr : parse rest with
    | none => simp
    | some n =>
      simp only [Option.some.injEq]
      split
      · rename_i hb
        simp only [Option.some.injEq]
        omega
      · rename_i hb
        simp only [reduceCtorEq, false_iff]
        omega
  · rw [if_pos (by simp [hp])]
    refine ⟨nofun, ?_⟩
    rintro ⟨-, -, d, h | h, -⟩
    · exact absurd (List.isPrefixOf_iff_prefix.2 ⟨d, h.symm⟩) hp
    · exact absurd (List.isPrefixOf_iff_prefix.2 ⟨_, h.symm⟩) hp

theorem indexOf_one {D : Type} (s : System D) (h : s.kind.OneLayer) (nm : List Nat) : indexOf s nm = if nm = s.kind.label ++ [49] then some 0 else none := by
  unfold indexOf
  rw [label_eq]
  rcases h with h | h | h <;> rw [h]

theorem indexOf_many {D : Type} (s : System D) (h : ¬ s.kind.OneLayer) (nm : List Nat) : indexOf s nm = numbered s nm := by
  unfold indexOf
  split <;> first | rfl | (rename_i h2; exact absurd (by simp [PartsKind.OneLayer, h2]) h)

theorem split_none (sep : Nat) (t : List Nat) (h : sep ∉ t) : Path.splitText sep t = [t] := by
  induction t with
  | nil => rfl
  | cons c cs ih =>
    simp only [List.mem_cons, not_or] at h
    rw [Path.splitText, if_neg (fun e => h.1 e.symm), ih h.2]

/-- The components of the path of a name. -/
theorem path_components (nm : List Nat) (h : 0x2f ∉ nm) (h0 : nm ≠ []) : Path.VfsPath.fromText .string (0x2f :: nm) = .string [[], nm] := by
  simp only [Path.VfsPath.fromText]
  rw [if_neg (by simp [h0]), Path.splitText, if_pos rfl, split_none _ _ h]

theorem decimal_slash {t : List Nat} {n : Nat} (h : IsDecimal t n) : 0x2f ∉ t := fun hm => by have := h.2.1 _ hm; omega

theorem one_digit {digits : List Nat} (h : IsDecimal digits 1) (h0 : digits.head? ≠ some 48) : digits = [49] := by
  obtain ⟨h1, h2, h3⟩ := h
  match digits, h1 with
  | [c], _ =>
    have := h2 c (by simp)
    simp only [List.foldl_cons, List.foldl_nil] at h3
    rw [show c = 49 by omega]
  | c :: d :: rest, _ =>
    exfalso
    have := h2 c (by simp)
    have h48 : c ≠ 48 := fun e => h0 (by rw [e]; rfl)
    simp only [List.foldl_cons] at h3
    have := foldl_ge rest ((0 * 10 + (c - 48)) * 10 + (d - 48))
    omega

/-- Names without a leading zero are those that the entries have. -/
theorem decimal_unique {digits : List Nat} {n : Nat} (h : IsDecimal digits n) (h0 : digits.head? ≠ some 48) : digits = decimal n := by
  have key : ∀ (a b : List Nat), a.length = b.length → (∀ c ∈ a, 48 ≤ c ∧ c ≤ 57) → (∀ c ∈ b, 48 ≤ c ∧ c ≤ 57) → ∀ u v,
      a.foldl (fun v c => v * 10 + (c - 48)) u = b.foldl (fun v c => v * 10 + (c - 48)) v → u = v ∧ a = b := by
    intro a
    induction a with
    | nil =>
      intro b hb _ _ u v h
      match b, hb with
      | [], _ => exact ⟨h, rfl⟩
    | cons c cs ih =>
      intro b hb ha hbd u v h
      match b, hb with
      | d :: ds, hb =>
        obtain ⟨h1, h2⟩ := ih ds (by simpa using hb) (fun x hx => ha x (by simp [hx])) (fun x hx => hbd x (by simp [hx])) _ _ h
        have hc := ha c (by simp)
        have hd := hbd d (by simp)
        have : u = v ∧ c = d := by
          have h1 : u * 10 + (c - 48) = v * 10 + (d - 48) := h1
          omega
        exact ⟨this.1, by rw [this.2, h2]⟩
  have bound : ∀ (a : List Nat), (∀ c ∈ a, 48 ≤ c ∧ c ≤ 57) → ∀ u,
      u * 10 ^ a.length ≤ a.foldl (fun v c => v * 10 + (c - 48)) u ∧ a.foldl (fun v c => v * 10 + (c - 48)) u < (u + 1) * 10 ^ a.length := by
    intro a
    induction a with
    | nil => intro _ u; simp
    | cons c cs ih =>
      intro ha u
      obtain ⟨h1, h2⟩ := ih (fun x hx => ha x (by simp [hx])) (u * 10 + (c - 48))
      have hc := ha c (by simp)
      simp only [List.foldl_cons, List.length_cons, Nat.pow_succ]
      have e1 : u * 10 * 10 ^ cs.length ≤ (u * 10 + (c - 48)) * 10 ^ cs.length := Nat.mul_le_mul_right _ (by omega)
      have e2 : (u * 10 + (c - 48) + 1) * 10 ^ cs.length ≤ (u + 1) * 10 * 10 ^ cs.length := Nat.mul_le_mul_right _ (by omega)
      rw [Nat.mul_comm (10 ^ cs.length) 10, ← Nat.mul_assoc, ← Nat.mul_assoc]
      omega
  have size : ∀ (a : List Nat) (m : Nat), IsDecimal a m → a.head? ≠ some 48 → 10 ^ (a.length - 1) ≤ m ∧ m < 10 ^ a.length := by
    intro a m ⟨h1, h2, h3⟩ h4
    match a, h1 with
    | c :: cs, _ =>
      have hc := h2 c (by simp)
      have h48 : c ≠ 48 := fun e => h4 (by rw [e]; rfl)
      obtain ⟨b1, b2⟩ := bound cs (fun x hx => h2 x (by simp [hx])) (0 * 10 + (c - 48))
      simp only [List.foldl_cons] at h3
      rw [h3] at b1 b2
      simp only [List.length_cons, Nat.add_sub_cancel, Nat.pow_succ]
      have e1 : 1 * 10 ^ cs.length ≤ (0 * 10 + (c - 48)) * 10 ^ cs.length := Nat.mul_le_mul_right _ (by omega)
      have e2 : (0 * 10 + (c - 48) + 1) * 10 ^ cs.length ≤ 10 * 10 ^ cs.length := Nat.mul_le_mul_right _ (by omega)
      rw [Nat.mul_comm _ 10]
      omega
  by_cases hn : n = 0
  · subst hn
    obtain ⟨h1, h2, h3⟩ := h
    exfalso
    match digits, h1 with
    | c :: cs, _ =>
      have hc := h2 c (by simp)
      have h48 : c ≠ 48 := fun e => h0 (by rw [e]; rfl)
      simp only [List.foldl_cons] at h3
      have := foldl_ge cs (0 * 10 + (c - 48))
      omega
  · obtain ⟨hd, hd0⟩ := decimal_spec n
    obtain ⟨a1, a2⟩ := size _ _ h h0
    obtain ⟨b1, b2⟩ := size _ _ hd (hd0 hn)
    have hlen : digits.length = (decimal n).length := by
      have l1 : digits.length - 1 < (decimal n).length := (Nat.pow_lt_pow_iff_right (by omega : 1 < 10)).1 (by omega)
      have l2 : (decimal n).length - 1 < digits.length := (Nat.pow_lt_pow_iff_right (by omega : 1 < 10)).1 (by omega)
      have := List.length_pos_iff.2 h.1
      have := List.length_pos_iff.2 hd.1
      omega
    exact (key _ _ hlen h.2.1 hd.2.1 0 0 (by rw [h.2.2, hd.2.2])).2

/-- The index of the name of a partition or layer. -/
theorem indexOf_name {D : Type} (s : System D) (hn : s.number < 2 ^ 64) (h1 : s.kind.OneLayer → s.number = 1) (i : Nat) (hi : i < s.number)
    (nm : List Nat) (h : IsPartName s.kind i nm) : indexOf s nm = some i := by
  obtain ⟨digits, rfl, hd, h0⟩ := h
  by_cases hk : s.kind.OneLayer
  · have : i = 0 := by have := h1 hk; omega
    subst this
    rw [indexOf_one _ hk, one_digit hd h0, if_pos rfl]
  · rw [indexOf_many _ hk, numbered_iff _ hk]
    exact ⟨hi, by omega, digits, .inl rfl, hd⟩

theorem partName_slash {k : PartsKind} {i : Nat} {nm : List Nat} (h : IsPartName k i nm) : 0x2f ∉ nm ∧ nm ≠ [] := by
  obtain ⟨digits, rfl, hd, -⟩ := h
  refine ⟨?_, by simp [hd.1]⟩
  rw [List.mem_append, not_or]
  exact ⟨label_slash k, decimal_slash hd⟩

end Keramics.VfsParts

namespace Keramics.Props
open Keramics.Spec VfsParts

variable {D : Type}

/-- C68: the file systems of volume systems and images list their partitions or layers under the root, in order. Each has the name
made of the label and its number, is a file with its data stream and without sub file entries, and the path of that name gives the
same file entry. -/
theorem C68_listed (s : System D) (hn : s.number < 2 ^ 64) (h1 : s.kind.OneLayer → s.number = 1) (i : Nat) (hi : i < numberOfSubs s .root)
    (d : D) (hd : s.get i = .ok d) :
    ∃ e nm, VfsParts.sub s .root i = .ok e ∧ VfsParts.name s e = some nm ∧ IsPartName s.kind i nm ∧ dataStream e = some d ∧
      isDirectory e = false ∧ numberOfSubs s e = 0 ∧
      byPath s (Path.VfsPath.fromText .string (0x2f :: nm)) = .ok (some e) ∧
      existsAt s (Path.VfsPath.fromText .string (0x2f :: nm)) = .ok true := by
  have hdec := decimal_spec (i + 1)
  have hpart : IsPartName s.kind i (s.kind.label ++ decimal (i + 1)) := ⟨_, rfl, hdec.1, hdec.2 (by omega)⟩
  have hidx := indexOf_name s hn h1 i hi _ hpart
  refine ⟨.part i d, s.kind.label ++ decimal (i + 1), ?_, ?_, hpart, rfl, rfl, rfl, ?_, ?_⟩
  · simp only [VfsParts.sub, hd, R.ok_bind, R.pure_eq]
  · simp only [VfsParts.name, label_eq]
  · rw [path_components _ (partName_slash hpart).1 (partName_slash hpart).2]
    simp [byPath, hidx, hd]
  · rw [path_components _ (partName_slash hpart).1 (partName_slash hpart).2]
    simp [existsAt, hidx]

/-- C68: "/" is the root: a directory without name and data stream, whose sub file entries are as many as there are partitions or
layers. -/
theorem C68_root (s : System D) : byPath s (Path.VfsPath.fromText .string [0x2f]) = .ok (some .root) ∧
    existsAt s (Path.VfsPath.fromText .string [0x2f]) = .ok true ∧ isDirectory (.root : Entry D) = true ∧ VfsParts.name s .root = none ∧
    dataStream (.root : Entry D) = none ∧ numberOfSubs s .root = s.number := ⟨rfl, rfl, rfl, rfl, rfl, rfl⟩

/-- C68, the converse: a path that gives a partition or layer is that of its name, for images with one layer exactly, otherwise up to
a plus sign and leading zeros of the number; any other path gives the root or nothing. Missing: that the number is written in one
way, which does not hold (`C68_violated_alias`). -/
theorem C68_found_partial (s : System D) (components : List (List Nat)) (e : Entry D) (h : byPath s (.string components) = .ok (some e)) :
    (components = [[]] ∧ e = .root) ∨
    ∃ i d nm, e = .part i d ∧ s.get i = .ok d ∧ components = [[], nm] ∧
      ((s.kind.OneLayer ∧ i = 0 ∧ IsPartName s.kind 0 nm) ∨
       (i < s.number ∧ ∃ digits, (nm = s.kind.label ++ digits ∨ nm = s.kind.label ++ 43 :: digits) ∧ IsDecimal digits (i + 1))) := by
  simp only [byPath] at h
  split at h
  · cases h
  rename_i hl
  split at h
  · cases h
  rename_i h0
  match components, hl, h0, h with
  | [c], _, h0, h =>
    simp only [List.getElem?_cons_zero, ne_eq, Option.some.injEq, not_not, List.getElem?_cons_succ, List.getElem?_nil] at h0 h
    subst h0
    cases h
    exact .inl ⟨rfl, rfl⟩
  | [c, nm], _, h0, h =>
    simp only [List.getElem?_cons_zero, ne_eq, Option.some.injEq, not_not, List.getElem?_cons_succ] at h0 h
    subst h0
    split at h
    · rename_i i hi
      obtain ⟨d, hd, h⟩ := R.bind_eq_ok.1 h
      cases h
      refine .inr ⟨i, d, nm, rfl, hd, rfl, ?_⟩
      by_cases hk : s.kind.OneLayer
      · rw [indexOf_one _ hk] at hi
        split at hi
        · rename_i hnm
          cases hi
          exact .inl ⟨hk, rfl, [49], hnm, ⟨by simp, by simp, rfl⟩, by simp⟩
        · cases hi
      · rw [indexOf_many _ hk, numbered_iff _ hk] at hi
        exact .inr ⟨hi.1, hi.2.2⟩
    · cases h
  | [], hl, _, _ => exact absurd (.inl rfl) hl
  | _ :: _ :: _ :: _, hl, _, _ => exact absurd (.inr (by simp)) hl

/-- C68 does not hold in full: with a plus sign or leading zeros in the number a path gives the same partition or layer, although no
file entry has that name. -/
theorem C68_violated_alias (s : System D) (hk : ¬ s.kind.OneLayer) (hn : s.number < 2 ^ 64) (i : Nat) (hi : i < s.number) (d : D) (hd : s.get i = .ok d)
    (nm digits : List Nat) (hnm : nm = s.kind.label ++ 43 :: digits ∨ nm = s.kind.label ++ 48 :: digits) (hdig : IsDecimal digits (i + 1)) :
    byPath s (Path.VfsPath.fromText .string (0x2f :: nm)) = .ok (some (.part i d)) ∧ ∀ e, VfsParts.name s e ≠ some nm := by
  have h48 : IsDecimal (48 :: digits) (i + 1) :=
    ⟨by simp, by simpa using hdig.2.1, by simpa using hdig.2.2⟩
  have hidx : indexOf s nm = some i := by
    rw [indexOf_many _ hk, numbered_iff _ hk]
    refine ⟨hi, by omega, ?_⟩
    rcases hnm with h | h
    · exact ⟨digits, .inr h, hdig⟩
    · exact ⟨48 :: digits, .inl h, h48⟩
  have hs : 0x2f ∉ nm ∧ nm ≠ [] := by
    have := label_slash s.kind
    have := decimal_slash hdig
    rcases hnm with h | h <;> subst h <;> exact ⟨by simp_all, by simp⟩
  refine ⟨?_, fun e he => ?_⟩
  · rw [path_components _ hs.1 hs.2]
    simp [byPath, hidx, hd]
  · match e, he with
    | .part j _, he =>
      simp only [VfsParts.name, label_eq, Option.some.injEq] at he
      obtain ⟨hj, hj0⟩ := decimal_spec (j + 1)
      rcases hnm with h | h
      · rw [h] at he
        have := List.append_cancel_left he
        have := hj.2.1 43 (by rw [this]; simp)
        omega
      · rw [h] at he
        have := List.append_cancel_left he
        exact hj0 (by omega) (by rw [this]; rfl)

/-- C68: the paths of other file systems are refused. -/
theorem C68_other_paths (s : System D) (p : Path.VfsPath) (h : ∀ c, p ≠ .string c) : byPath s p = .err ∧ existsAt s p = .err := by
  cases p with
  | string c => exact absurd rfl (h c)
  | ext c => exact ⟨rfl, rfl⟩
  | fat c => exact ⟨rfl, rfl⟩
  | ntfs c => exact ⟨rfl, rfl⟩

/-- C68: a path exists exactly if a file entry is found there, when all partitions or layers can be opened. -/
theorem C68_exists (s : System D) (hall : ∀ i, i < s.number → ∃ d, s.get i = .ok d) (h1 : s.kind.OneLayer → s.number = 1) (p : Path.VfsPath) (b : Bool) :
    existsAt s p = .ok b ↔ ∃ o, byPath s p = .ok o ∧ o.isSome = b := by
  cases p with
  | string c =>
    simp only [existsAt, byPath]
    split
    · cases b <;> simp
    · split
      · cases b <;> simp
      · split
        · cases b <;> simp
        · rename_i nm _
          cases hi : indexOf s nm with
          | none => cases b <;> simp
          | some i =>
            have hlt : i < s.number := by
              by_cases hk : s.kind.OneLayer
              · rw [indexOf_one _ hk] at hi
                split at hi
                · cases hi
                  have := h1 hk
                  omega
                · cases hi
              · rw [indexOf_many _ hk, numbered_iff _ hk] at hi
                exact hi.1
            obtain ⟨d, hd⟩ := hall i hlt
            simp only [hd, R.ok_bind, R.pure_eq]
            cases b <;> simp
  | ext c => simp [existsAt, byPath]
  | fat c => simp [existsAt, byPath]
  | ntfs c => simp [existsAt, byPath]

/-- C68 with C46: in a volume with a valid Apple partition map of `n` entries, the path "/apm" with the number `i + 1` gives the bytes
that entry `i + 1` describes. -/
theorem C68_apm (volume : List Byte) (hv : volume.length < 2 ^ 63) (n : Nat) (h : Spec.Apm.Map volume n) (i : Nat) (hi : i + 1 < n) (nm : List Nat)
    (hnm : IsPartName .apm i nm) :
    ∃ es, Apm.readMap volume = .ok es ∧ numberOfSubs (ofApm es) .root = n - 1 ∧
      byPath (ofApm es) (Path.VfsPath.fromText .string (0x2f :: nm)) =
        .ok (some (.part i ⟨fieldBe (Spec.Apm.entry volume (i + 1)) 8 4 * 512, fieldBe (Spec.Apm.entry volume (i + 1)) 12 4 * 512⟩)) := by
  have hfield : ∀ off, fieldBe (Spec.Apm.entry volume (i + 1)) off 4 < 2 ^ 32 := by
    intro off
    unfold fieldBe beNat
    have h1 := leNat_lt (bytesAt (Spec.Apm.entry volume (i + 1)) off 4).reverse
    have h2 : 256 ^ (bytesAt (Spec.Apm.entry volume (i + 1)) off 4).reverse.length ≤ 256 ^ 4 :=
      Nat.pow_le_pow_right (by omega) (by simp [bytesAt])
    have h3 : 256 ^ 4 = 2 ^ 32 := by decide
    omega
  obtain ⟨es, hes, heq⟩ := C46_listing volume hv n h
  have hlen : es.length = n - 1 := by rw [heq]; simp
  have hbound : n < 2 ^ 63 := by have := h.2.1; omega
  refine ⟨es, hes, hlen, ?_⟩
  have hidx := indexOf_name (ofApm es) (show es.length < 2 ^ 64 by omega) (fun hk => by rcases hk with h | h | h <;> cases h) i
    (show i < es.length by omega) nm hnm
  have hget : (ofApm es).get i = .ok ⟨fieldBe (Spec.Apm.entry volume (i + 1)) 8 4 * 512, fieldBe (Spec.Apm.entry volume (i + 1)) 12 4 * 512⟩ := by
    show Apm.getPartition es i = _
    have he : es[i]? = some ⟨n, fieldBe (Spec.Apm.entry volume (i + 1)) 8 4, fieldBe (Spec.Apm.entry volume (i + 1)) 12 4,
        (bytesAt (Spec.Apm.entry volume (i + 1)) 16 32).takeWhile (· ≠ 0#8), (bytesAt (Spec.Apm.entry volume (i + 1)) 48 32).takeWhile (· ≠ 0#8),
        fieldBe (Spec.Apm.entry volume (i + 1)) 88 4⟩ := by
      rw [heq, List.getElem?_map, List.getElem?_range' (by omega)]
      simp only [Option.map_some, Nat.one_mul, Nat.add_comm 1 i]
    have a1 := hfield 8
    have a2 := hfield 12
    generalize fieldBe (Spec.Apm.entry volume (i + 1)) 8 4 = a at *
    generalize fieldBe (Spec.Apm.entry volume (i + 1)) 12 4 = b at *
    simp only [Apm.getPartition, he]
    rw [R.mulU_ok (by omega), R.ok_bind, R.mulU_ok (by omega)]
    rfl
  rw [path_components _ (partName_slash hnm).1 (partName_slash hnm).2]
  simp [byPath, hidx, hget]

/-- Not vacuous: the twelfth layer of a QCOW image with twelve. -/
example : ∃ nm, nm = codePoints "qcow12" ∧ byPath (ofLayers .qcow [1, 2, 3, 4, 5, 6, 7, 8, 9, 10, 11, 12]) (Path.VfsPath.fromText .string (0x2f :: nm)) = .ok (some (.part 11 12)) ∧
    IsPartName .qcow 11 nm :=
  ⟨_, rfl, rfl, [49, 50], rfl, ⟨by simp, by simp, rfl⟩, by simp⟩

example : ∃ e nm, VfsParts.sub (ofLayers .vhdx [5, 6, 7]) .root 2 = .ok e ∧ VfsParts.name (ofLayers .vhdx [5, 6, 7]) e = some nm ∧ IsPartName .vhdx 2 nm ∧
    dataStream e = some 7 := by
  obtain ⟨e, nm, h1, h2, h3, h4, -⟩ := C68_listed (ofLayers .vhdx [5, 6, 7]) (by decide) (fun h => by rcases h with h | h | h <;> cases h) 2 (by decide) 7 rfl
  exact ⟨e, nm, h1, h2, h3, h4⟩

/-- Not vacuous: "/gpt+2" and "/gpt02". -/
example : byPath (ofLayers .gpt [5, 6, 7]) (Path.VfsPath.fromText .string (codePoints "/gpt+2")) = .ok (some (.part 1 6)) ∧
    byPath (ofLayers .gpt [5, 6, 7]) (Path.VfsPath.fromText .string (codePoints "/gpt02")) = .ok (some (.part 1 6)) := ⟨rfl, rfl⟩

end Keramics.Props
