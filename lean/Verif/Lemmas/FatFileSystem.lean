import Verif.Props.Fat
import Verif.Props.FatDirectory
import Verif.Model.FatFileSystem
import Verif.Spec.FatFileSystem

/-! # Lemmas: FAT file systems -/

namespace Keramics.FatFs
open Keramics.FatDir Keramics.Spec.FatDir Keramics.Props.FatDirLemmas

/-! ## Reading without identifiers -/

/-- A state without the identifiers of its entries. -/
def erase (st : State) : State := { st with entries := st.entries.map fun p => (p.1, { p.2 with identifier := 0 }) }

theorem insert_erase (m : List (List Nat × Entry)) (k : List Nat) (e : Entry) :
    (FatDir.insert m k e).map (fun p => (p.1, { p.2 with identifier := 0 })) =
      FatDir.insert (m.map fun p => (p.1, { p.2 with identifier := 0 })) k { e with identifier := 0 } := by
  unfold FatDir.insert
  rw [List.map_append, List.filter_map]
  rfl

theorem stepShort_erase (fold : Nat → Option Nat) (offset : Nat) (st : State) (e : List Byte) :
    (stepShort fold offset st e >>= fun s => .ok (erase s)) = stepShort fold 0 (erase st) e := by
  unfold stepShort
  cases readShort e with
  | err => rfl
  | panic => rfl
  | ok s =>
    simp only [R.ok_bind]
    split
    · rfl
    split
    · rfl
    · simp only [R.pure_eq, R.ok_bind, erase]
      rw [insert_erase]
      rfl

theorem stepLong_erase (st : State) (e : List Byte) : (stepLong st e >>= fun s => .ok (erase s)) = stepLong (erase st) e := by
  unfold stepLong
  cases readLong e with
  | err => rfl
  | panic => rfl
  | ok s =>
    simp only [R.ok_bind]
    cases R.addU 8 (s.sequence &&& 0x1f) 1 with
    | err => rfl
    | panic => rfl
    | ok n =>
      simp only [R.ok_bind]
      split
      · rfl
      · show (if n ≠ st.last then _ else _) >>= _ = (if n ≠ st.last then _ else _)
        split <;> rfl

/-- Reading directory entries without identifiers. -/
def readE (fold : Nat → Option Nat) (st : State) (data : List Byte) : R State :=
  if _h : data.length = 0 then .ok st
  else if _h' : data.length < 32 then .err
  else do
    match ← entryType data with
    | .longName =>
      let st ← stepLong st (data.take 32)
      readE fold st (data.drop 32)
    | .shortName =>
      let st ← stepShort fold 0 st (data.take 32)
      readE fold st (data.drop 32)
    | .terminator => .ok st
    | .unallocated => readE fold st (data.drop 32)
termination_by data.length
decreasing_by all_goals (rw [List.length_drop]; omega)

theorem readData_erase (fold : Nat → Option Nat) (data : List Byte) : ∀ (offset : Nat) (st : State), offset + data.length < 2 ^ 64 →
    (readData fold offset st data >>= fun s => .ok (erase s)) = readE fold (erase st) data := by
  induction hn : data.length using Nat.strongRecOn generalizing data with
  | _ n ih =>
    subst hn
    intro offset st ho
    unfold readData readE
    by_cases h0 : data.length = 0
    · rw [dif_pos h0, dif_pos h0]; rfl
    rw [dif_neg h0, dif_neg h0]
    by_cases h1 : data.length < 32
    · rw [dif_pos h1, dif_pos h1]; rfl
    rw [dif_neg h1, dif_neg h1]
    have hd : (data.drop 32).length < data.length := by rw [List.length_drop]; omega
    have hrec := fun st => ih _ hd (data.drop 32) rfl (offset + 32) st (by rw [List.length_drop]; omega)
    cases entryType data with
    | err => rfl
    | panic => rfl
    | ok ty =>
      simp only [R.ok_bind]
      cases ty with
      | terminator => rfl
      | unallocated =>
        simp only
        rw [R.addU_ok (by omega), R.ok_bind]
        exact hrec st
      | longName =>
        simp only
        rw [← stepLong_erase]
        cases stepLong st (data.take 32) with
        | err => rfl
        | panic => rfl
        | ok s =>
          simp only [R.ok_bind]
          rw [R.addU_ok (by omega), R.ok_bind]
          exact hrec s
      | shortName =>
        simp only
        rw [← stepShort_erase fold offset]
        cases stepShort fold offset st (data.take 32) with
        | err => rfl
        | panic => rfl
        | ok s =>
          simp only [R.ok_bind]
          rw [R.addU_ok (by omega), R.ok_bind]
          exact hrec s

/-- Data whose entries after an end mark are zeros. -/
def Clean (data : List Byte) : Prop := ∀ k, (data.drop (32 * k)).head? = some 0#8 → ∀ b ∈ data.drop (32 * k), b = 0#8

theorem entryType_append {a : List Byte} (h : 32 ≤ a.length) (b : List Byte) : entryType (a ++ b) = entryType a := by
  unfold entryType
  have hlen : (a ++ b).length = a.length + b.length := List.length_append
  have hg : R.get (a ++ b) 0 = R.get a 0 := by
    unfold R.get; rw [List.getElem?_append_left (by omega)]
  have hs : ∀ i j, i ≤ j → j ≤ 32 → R.slice (a ++ b) i j = R.slice a i j := by
    intro i j hij hj
    rw [R.slice_ok hij (by omega), R.slice_ok hij (by omega), List.drop_append_of_le_length (by omega),
      List.take_append_of_le_length (by rw [List.length_drop]; omega)]
  rw [hg, hs 11 13 (by omega) (by omega), hs 26 28 (by omega) (by omega), hs 0 32 (by omega) (by omega)]

theorem entryType_terminator {a : List Byte} (h : 32 ≤ a.length) (ht : entryType a = .ok .terminator) : a.head? = some 0#8 := by
  unfold entryType at ht
  have hg : ∃ b0, R.get a 0 = .ok b0 := ⟨_, R.get_ok (by omega)⟩
  obtain ⟨b0, hb0⟩ := hg
  rw [hb0, R.ok_bind] at ht
  split at ht
  · cases ht
  rw [R.slice_ok (by omega) (by omega), R.ok_bind, R.slice_ok (by omega) (by omega), R.ok_bind] at ht
  split at ht
  · cases ht
  rw [R.slice_ok (by omega) (by omega), R.ok_bind] at ht
  split at ht
  · rename_i hz
    have := congrArg List.head? hz
    rw [List.drop_zero, List.head?_take, if_neg (by omega)] at this
    rw [this]; rfl
  · cases ht

theorem readE_zeros {fold : Nat → Option Nat} {st : State} {a : List Byte} (hd : 32 ∣ a.length) (hz : ∀ b ∈ a, b = 0#8) : readE fold st a = .ok st := by
  have ha : a = List.replicate a.length 0#8 := List.eq_replicate_iff.2 ⟨rfl, hz⟩
  by_cases h0 : a = []
  · subst h0; unfold readE; rfl
  have hl : 32 ≤ a.length := by
    have : 0 < a.length := List.length_pos_iff.2 h0
    exact Nat.le_of_dvd this hd
  have h := readData_erase fold a 0 st
  have e : a = List.replicate 32 0#8 ++ List.replicate (a.length - 32) 0#8 := by
    conv_lhs => rw [ha]
    rw [List.replicate_append_replicate]; congr 1; omega
  have ht : entryType a = .ok .terminator := by
    rw [e, entryType_append (by simp)]
    decide +kernel
  unfold readE
  rw [dif_neg (by omega), dif_neg (by omega), ht]
  rfl

theorem Clean.drop {data : List Byte} (h : Clean data) : Clean (data.drop 32) := by
  intro k hk
  rw [List.drop_drop] at hk ⊢
  have := h (k + 1)
  rw [show 32 * (k + 1) = 32 + 32 * k by omega] at this
  exact this hk

theorem readE_append {fold : Nat → Option Nat} {b : List Byte} (hb : 32 ∣ b.length) (a : List Byte) (ha : 32 ∣ a.length) (hc : Clean (a ++ b)) (st : State) :
    readE fold st (a ++ b) = readE fold st a >>= fun st => readE fold st b := by
  induction hn : a.length using Nat.strongRecOn generalizing a st with
  | _ n ih =>
    subst hn
    by_cases h0 : a = []
    · subst h0
      conv_rhs => rw [readE]
      rfl
    have hl : 32 ≤ a.length := Nat.le_of_dvd (List.length_pos_iff.2 h0) ha
    have hlen : (a ++ b).length = a.length + b.length := List.length_append
    conv_lhs => unfold readE
    conv_rhs => arg 1; unfold readE
    rw [dif_neg (by omega), dif_neg (by omega), dif_neg (by omega), dif_neg (by omega), entryType_append hl]
    have ht : (a ++ b).take 32 = a.take 32 := List.take_append_of_le_length hl
    have hdr : (a ++ b).drop 32 = a.drop 32 ++ b := List.drop_append_of_le_length hl
    rw [ht, hdr]
    have hrec : ∀ st, readE fold st (a.drop 32 ++ b) = readE fold st (a.drop 32) >>= fun st => readE fold st b := by
      intro st
      refine ih _ (by rw [List.length_drop]; omega) (a.drop 32) (by rw [List.length_drop]; omega) ?_ st rfl
      rw [← hdr]; exact hc.drop
    cases ht : entryType a with
    | err => rfl
    | panic => rfl
    | ok ty =>
      simp only [R.ok_bind]
      cases ty with
      | terminator =>
        simp only [R.ok_bind]
        have hz := hc 0 (by
          rw [Nat.mul_zero, List.drop_zero, List.head?_append, entryType_terminator hl ht]; rfl)
        rw [readE_zeros hb fun x hx => hz x (by simp [hx])]
      | unallocated => simp only; exact hrec st
      | longName =>
        simp only
        cases stepLong st (a.take 32) with
        | err => rfl
        | panic => rfl
        | ok s => simp only [R.ok_bind]; exact hrec s
      | shortName =>
        simp only
        cases stepShort fold 0 st (a.take 32) with
        | err => rfl
        | panic => rfl
        | ok s => simp only [R.ok_bind]; exact hrec s

/-! ## Chains of clusters -/

theorem readExactAt_cluster {U : List Byte} {first bs c : Nat} (h : first + (c - 2) * bs + bs ≤ U.length) :
    readExactAt U (first + (c - 2) * bs) bs = .ok (Spec.Fat.cluster U first bs c) ∧ (Spec.Fat.cluster U first bs c).length = bs := by
  have hl : ((U.drop (first + (c - 2) * bs)).take bs).length = bs := by rw [List.length_take, List.length_drop]; omega
  unfold readExactAt Spec.Fat.cluster
  refine ⟨?_, hl⟩
  simp only
  rw [if_pos hl]

theorem clusterLoop_ok {fold : Nat → Option Nat} {t : Fat.Table} {U : List Byte} (ht : Fat.Typed t t.clusterSize) (hU : U.length < 2 ^ 63) (h32 : 32 ∣ t.clusterSize)
    {c : Nat} {chain : List Nat} (hch : Spec.Fat.Chain (Fat.width t.format) (U.drop t.offset) c chain) (hr : ∀ x ∈ chain, Fat.Readable t U x)
    (hdata : ∀ x ∈ chain, t.firstCluster + (x - 2) * t.clusterSize + t.clusterSize ≤ U.length)
    (hc : Clean (chain.flatMap (Spec.Fat.cluster U t.firstCluster t.clusterSize))) :
    ∀ (fuel : Nat) (visited : List Nat) (st : State), chain.length ≤ fuel → (∀ x ∈ chain, x ∉ visited) →
      (clusterLoop fold t U fuel c visited st >>= fun s => .ok (erase s)) =
        readE fold (erase st) (chain.flatMap (Spec.Fat.cluster U t.firstCluster t.clusterSize)) := by
  have hnd := Fat.chain_nodup (Fat.width_facts t.format) hch
  induction hch with
  | @last c hl =>
    intro fuel visited st _ _
    have hlt : Fat.largest t ≤ c := by
      rw [Fat.largest_eq]
      refine Nat.le_trans ?_ hl
      cases t.format <;> decide
    unfold clusterLoop
    rw [if_neg (by omega)]
    rw [R.ok_bind, List.flatMap_nil]
    unfold readE; rfl
  | @next c chain h2 hbad hrest ih =>
    intro fuel visited st hfuel hv
    have hrc := hr c (by simp)
    have hd := hdata c (by simp)
    have hlt : c < Fat.largest t := hrc.number
    have hp := Fat.physical_lt ht hlt
    obtain ⟨hx, hxl⟩ := readExactAt_cluster hd
    cases fuel with
    | zero => simp at hfuel
    | succ fuel =>
      unfold clusterLoop
      rw [if_pos ⟨h2, hlt⟩]
      simp only
      rw [R.require_true (hv c (by simp)), R.ok_bind, R.mulU_ok (by omega), R.ok_bind, R.addU_ok (by have := ht.first_lt; omega), R.ok_bind, hx, R.ok_bind]
      rw [List.flatMap_cons] at hc ⊢
      have hbl : ∀ x ∈ chain, (Spec.Fat.cluster U t.firstCluster t.clusterSize x).length = t.clusterSize := fun x hx =>
        (readExactAt_cluster (hdata x (List.mem_cons_of_mem _ hx))).2
      have hdv : 32 ∣ (chain.flatMap (Spec.Fat.cluster U t.firstCluster t.clusterSize)).length := by
        rw [flatMap_uniform_length hbl]; exact Nat.dvd_trans h32 (Nat.dvd_mul_left _ _)
      rw [readE_append hdv _ (by rw [hxl]; exact h32) hc, ← readData_erase fold _ (t.firstCluster + (c - 2) * t.clusterSize) st (by rw [hxl]; have := ht.first_lt; omega)]
      cases hrd : readData fold (t.firstCluster + (c - 2) * t.clusterSize) st (Spec.Fat.cluster U t.firstCluster t.clusterSize c) with
      | err => rfl
      | panic => rfl
      | ok s =>
        simp only [R.ok_bind]
        rw [Fat.readEntry_ok hrc.entry hrc.data (by omega), R.ok_bind, hrc.reserved]
        have hclean : Clean (chain.flatMap (Spec.Fat.cluster U t.firstCluster t.clusterSize)) := by
          intro k hk
          obtain ⟨q, hq⟩ := h32
          have := hc (q + k)
          rw [show 32 * (q + k) = (Spec.Fat.cluster U t.firstCluster t.clusterSize c).length + 32 * k by rw [hxl, hq]; omega, ← List.drop_drop, List.drop_left] at this
          exact this hk
        exact ih (fun x hx => hr x (List.mem_cons_of_mem _ hx)) (fun x hx => hdata x (List.mem_cons_of_mem _ hx)) hclean (List.nodup_cons.1 hnd).2
          fuel (c :: visited) s (by simpa using hfuel) fun x hm => by
            rw [List.mem_cons]
            rintro (rfl | h)
            · exact (List.nodup_cons.1 hnd).1 hm
            · exact hv x (List.mem_cons_of_mem _ hm) h

/-! ## Directories -/

/-- Entries of 32 bytes none of which starts with a zero. -/
def Marked (l : List Byte) : Prop := 32 ∣ l.length ∧ ∀ k, (l.drop (32 * k)).head? ≠ some 0#8

theorem Marked.append {a b : List Byte} (ha : Marked a) (hb : Marked b) : Marked (a ++ b) := by
  obtain ⟨⟨q, hq⟩, ha⟩ := ha
  refine ⟨by rw [List.length_append]; exact Nat.dvd_add ⟨q, hq⟩ hb.1, fun k => ?_⟩
  by_cases hk : 32 * k < a.length
  · rw [List.drop_append_of_le_length (by omega), List.head?_append]
    have := ha k
    cases h : (a.drop (32 * k)).head? with
    | none =>
      rw [List.head?_eq_none_iff] at h
      have := congrArg List.length h
      rw [List.length_drop, List.length_nil] at this
      omega
    | some x => rw [h] at this; exact this
  · have e : 32 * k = a.length + 32 * (k - q) := by omega
    rw [e, ← List.drop_drop, List.drop_left]
    exact hb.2 _

theorem marked_one {e : List Byte} (hl : e.length = 32) (h : e.head? ≠ some 0#8) : Marked e := by
  refine ⟨⟨1, by omega⟩, fun k => ?_⟩
  cases k with
  | zero => exact h
  | succ k => rw [List.drop_of_length_le (by omega)]; simp

theorem marked_nil : Marked [] := ⟨Nat.dvd_zero _, fun k => by simp⟩

theorem marked_longEntries (checksum : Byte) (ps : List (List Nat)) : ∀ (number : Nat), 1 ≤ number → number + ps.length ≤ 21 → (∀ p ∈ ps, p.length = 13) →
    Marked (longEntries checksum number ps) := by
  have hone : ∀ number p, 1 ≤ number → number < 256 → p.length = 13 → Marked (longEntry checksum number p) := by
    intro number p h1 h2 hp
    refine marked_one (longEntry_length _ _ hp) ?_
    unfold longEntry
    simp only [List.singleton_append, List.cons_append, List.head?_cons]
    intro h
    have := congrArg BitVec.toNat (Option.some.inj h)
    simp at this
    omega
  induction ps with
  | nil => intros; exact marked_nil
  | cons p ps ih =>
    intro number h1 h2 hp
    cases ps with
    | nil => exact hone _ _ (by omega) (by simp at h2; omega) (hp p (by simp))
    | cons q qs =>
      rw [longEntries]
      · simp only [List.length_cons] at h2
        exact (ih (number + 1) (by omega) (by simp only [List.length_cons]; omega) fun x hx => hp x (List.mem_cons_of_mem _ hx)).append
          (hone _ _ h1 (by omega) (hp p (by simp)))
      · simp

theorem marked_item {i : Item} (h : i.Ok) : Marked i.bytes := by
  match i, h with
  | .long name c e, ⟨n1, n2, n3, hf⟩ =>
    obtain ⟨p1, -, -, p4⟩ := pieces_spec name n1 n3
    exact (marked_longEntries c _ 1 (by omega) (by omega) fun p hp => (p1 p hp).1).append (marked_one hf.1 hf.2.2.1)
  | .short e, hf => exact marked_one hf.1 hf.2.2.1
  | .deleted e, h => exact marked_one h.1 (by show e.head? ≠ _; rw [h.2]; decide)
  | .dots e, h =>
    refine marked_one h.1 ?_
    have : (e.take 11).head? = e.head? := by rw [List.head?_take, if_neg (by omega)]
    show e.head? ≠ _
    rw [← this]
    rcases h.2.1 with h | h <;> rw [h] <;> decide
  | .label e, h => exact marked_one h.1 h.2.2.1

theorem marked_stored {stored : List Stored} (h : ∀ s ∈ stored, s.Ok) : Marked (stored.flatMap fun s => s.item.bytes) := by
  induction stored with
  | nil => exact marked_nil
  | cons s ss ih =>
    rw [List.flatMap_cons]
    exact (marked_item (stored_item_ok (h s (by simp)))).append (ih fun x hx => h x (List.mem_cons_of_mem _ hx))

theorem Marked.clean {l : List Byte} (h : Marked l) (n : Nat) : Clean (l ++ List.replicate n 0#8) := by
  intro k hk
  obtain ⟨⟨q, hq⟩, h⟩ := h
  by_cases hlt : 32 * k < l.length
  · rw [List.drop_append_of_le_length (by omega), List.head?_append] at hk
    have := h k
    cases hh : (l.drop (32 * k)).head? with
    | none =>
      rw [List.head?_eq_none_iff] at hh
      have := congrArg List.length hh
      rw [List.length_drop, List.length_nil] at this
      omega
    | some x => rw [hh] at this hk; exact absurd hk this
  · rw [List.drop_append, List.drop_of_length_le (by omega), List.nil_append, List.drop_replicate]
    intro b hb
    exact (List.mem_replicate.1 hb).2

/-- The entries of a directory are those of what is stored. -/
def Finds (fold : Nat → Option Nat) (stored : List Stored) (st : State) : Prop :=
  ∀ name, match Spec.FatFs.lookup fold stored name with
    | none => find st (Ucs2.caseFold fold name) = none
    | some f => ∃ e, find st (Ucs2.caseFold fold name) = some e ∧ e.long = f.1 ∧
        e.short = ⟨f.2.display, f.2.attributes, f.2.flags, f.2.cluster, f.2.size⟩

/-- The entries of a directory are those of what is stored, and there are no others. -/
structure DirOk (fold : Nat → Option Nat) (stored : List Stored) (st : State) : Prop where
  finds : Finds fold stored st
  nodup : (st.entries.map Prod.fst).Nodup
  keys : ∀ k ∈ st.entries.map Prod.fst, ∃ name, k = Ucs2.caseFold fold name

theorem keys_erase (st : State) : (erase st).entries.map Prod.fst = st.entries.map Prod.fst := by
  unfold erase
  simp [Function.comp_def]

theorem keys_addAll (fold : Nat → Option Nat) (es : List Entry) : ∀ m : List (List Nat × Entry), (m.map Prod.fst).Nodup →
    ((Props.FatDirLemmas.addAll fold m es).map Prod.fst).Nodup ∧
    ∀ k ∈ (Props.FatDirLemmas.addAll fold m es).map Prod.fst, k ∈ m.map Prod.fst ∨ ∃ e ∈ es, k = lookupName fold e := by
  induction es with
  | nil => exact fun m hm => ⟨hm, fun k hk => Or.inl hk⟩
  | cons e es ih =>
    intro m hm
    have hsub : ((m.filter (·.1 ≠ lookupName fold e)).map Prod.fst).Sublist (m.map Prod.fst) := List.filter_sublist.map _
    have hk : (FatDir.insert m (lookupName fold e) e).map Prod.fst = (m.filter (·.1 ≠ lookupName fold e)).map Prod.fst ++ [lookupName fold e] := by
      unfold FatDir.insert
      rw [List.map_append]; rfl
    have hn : ((FatDir.insert m (lookupName fold e) e).map Prod.fst).Nodup := by
      rw [hk]
      refine List.nodup_append.2 ⟨hsub.nodup hm, by simp, ?_⟩
      rintro a ha b hb rfl
      obtain rfl := List.mem_singleton.1 hb
      obtain ⟨p, hp, hpe⟩ := List.mem_map.1 ha
      have := (List.mem_filter.1 hp).2
      simp [hpe] at this
    obtain ⟨h1, h2⟩ := ih _ hn
    refine ⟨h1, fun k h => ?_⟩
    rcases h2 k h with h | ⟨e', he, rfl⟩
    · rw [hk] at h
      rcases List.mem_append.1 h with h | h
      · exact Or.inl (hsub.subset h)
      · exact Or.inr ⟨e, List.mem_cons_self, List.mem_singleton.1 h⟩
    · exact Or.inr ⟨e', List.mem_cons_of_mem _ he, rfl⟩

theorem find_zip_rel {α β : Type} {R : α → β → Prop} (as : List α) (bs : List β) (h : List.Forall₂ R as bs) (q : α → Bool) :
    match as.reverse.find? q with
    | none => (as.zip bs).reverse.find? (fun x => q x.1) = none
    | some a => ∃ b, (as.zip bs).reverse.find? (fun x => q x.1) = some (a, b) ∧ R a b := by
  induction h with
  | nil => rfl
  | @cons a b as bs h1 h2 ih =>
    rw [List.reverse_cons, List.find?_append, List.zip_cons_cons, List.reverse_cons, List.find?_append]
    cases hf : as.reverse.find? q with
    | some x =>
      rw [hf] at ih
      obtain ⟨y, hy, hr⟩ := ih
      exact ⟨y, by rw [hy]; rfl, hr⟩
    | none =>
      rw [hf] at ih
      simp only at ih
      rw [ih]
      by_cases hq : q a = true
      · simp [hq, h1]
      · simp [hq]

theorem find_erase (st : State) (key : List Nat) : find (erase st) key = (find st key).map fun e => { e with identifier := 0 } := by
  unfold find erase
  simp only
  rw [List.find?_map, Option.map_map, Option.map_map]
  rfl

/-- Reading the data of a directory, up to identifiers. -/
theorem readE_lists {fold : Nat → Option Nat} (hfold : ∀ u, u < 128 → (fold u).getD u = if 97 ≤ u ∧ u ≤ 122 then u - 32 else u)
    {data : List Byte} {stored : List Stored} (h : Spec.FatFs.Lists data stored) (hd : 32 ∣ data.length) (hl : data.length < 2 ^ 64) :
    Clean data ∧ ∃ st, readE fold init data = .ok (erase st) ∧ ∀ s, erase s = erase st → DirOk fold stored s := by
  obtain ⟨hok, n, rfl⟩ := h
  have hm := marked_stored hok
  refine ⟨hm.clean n, ?_⟩
  rw [List.length_append, List.length_replicate] at hd hl
  have hn : 32 ∣ n := (Nat.dvd_add_right hm.1).1 hd
  have htail : List.replicate n 0#8 = [] ∨ ∃ junk, List.replicate n 0#8 = List.replicate 32 0#8 ++ junk := by
    by_cases h0 : n = 0
    · left; rw [h0]; rfl
    · have := Nat.le_of_dvd (by omega) hn
      exact .inr ⟨List.replicate (n - 32) 0#8, by rw [List.replicate_append_replicate]; congr 1; omega⟩
  obtain ⟨st, es, h1, h2, h4, h5, h3⟩ := Props.directory_entries fold hfold 0 stored hok (List.replicate n 0#8) htail (by omega)
  have he := readData_erase fold ((stored.flatMap fun s => s.item.bytes) ++ List.replicate n 0#8) 0 init (by rw [List.length_append, List.length_replicate]; omega)
  rw [h1, R.ok_bind, show erase init = init from rfl] at he
  obtain ⟨k1, k2⟩ := keys_addAll fold es [] List.nodup_nil
  rw [← h4] at k1 k2
  refine ⟨st, he.symm, fun s hs => ⟨fun name => ?_, ?_, ?_⟩⟩
  rotate_left
  · rw [← keys_erase, hs, keys_erase]; exact k1
  · rw [← keys_erase, hs, keys_erase]
    intro k hk
    rcases k2 k hk with h | ⟨e, he, rfl⟩
    · cases h
    · exact h5 e he
  have hf : (find s (Ucs2.caseFold fold name)).map (fun e => { e with identifier := 0 }) = (find st (Ucs2.caseFold fold name)).map fun e => { e with identifier := 0 } := by
    rw [← find_erase, hs, find_erase]
  have hz := find_zip_rel _ _ h2 fun f => decide (folded fold (fileName f) = folded fold name)
  rw [h3] at hf
  show match (stored.flatMap Stored.files).reverse.find? fun f => decide (folded fold (fileName f) = folded fold name) with
    | none => _
    | some f => _
  cases hx : (stored.flatMap Stored.files).reverse.find? fun f => decide (folded fold (fileName f) = folded fold name) with
  | none =>
    rw [hx] at hz
    simp only at hz ⊢
    rw [hz] at hf
    simpa using hf
  | some f =>
    rw [hx] at hz
    obtain ⟨b, hb, hr1, hr2⟩ := hz
    simp only
    rw [hb] at hf
    cases hy : find s (Ucs2.caseFold fold name) with
    | none => rw [hy] at hf; simp at hf
    | some e =>
      rw [hy] at hf
      simp only [Option.map_some, Option.some.injEq] at hf
      refine ⟨e, rfl, ?_, ?_⟩
      · have := congrArg Entry.long hf; rw [← hr1]; exact this
      · have := congrArg Entry.short hf; rw [← hr2]; exact this

end Keramics.FatFs
