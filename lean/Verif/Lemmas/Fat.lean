import Verif.Lemmas.Blocks
import Verif.Lemmas.BlockTree
import Verif.Model.Fat
import Verif.Spec.Fat
import Verif.Base.Bits
import Verif.Base.Sat
import Batteries.Data.List.Perm

/-! # Lemmas: file allocation table and FAT streams -/

namespace Keramics

theorem leNat_split (l : List Byte) (k : Nat) (hk : k ≤ l.length) :
    leNat l = leNat (l.take k) + 256 ^ k * leNat (l.drop k) := by
  conv => lhs; rw [← List.take_append_drop k l]
  rw [leNat_append, List.length_take, Nat.min_eq_left hk]

theorem leNat_drop (l : List Byte) (k : Nat) : leNat (l.drop k) = leNat l / 256 ^ k := by
  by_cases hk : k ≤ l.length
  · have h1 := leNat_split l k hk
    have h2 := leNat_lt (l.take k)
    rw [List.length_take, Nat.min_eq_left hk] at h2
    rw [h1, Nat.add_mul_div_left _ _ (Nat.pow_pos (by omega)), Nat.div_eq_of_lt h2, Nat.zero_add]
  · rw [List.drop_of_length_le (by omega)]
    have h2 := leNat_lt l
    have : 256 ^ l.length ≤ 256 ^ k := Nat.pow_le_pow_right (by omega) (by omega)
    rw [Nat.div_eq_of_lt (by omega)]; rfl

theorem leNat_take (l : List Byte) (k : Nat) : leNat (l.take k) = leNat l % 256 ^ k := by
  by_cases hk : k ≤ l.length
  · have h1 := leNat_split l k hk
    have h2 := leNat_lt (l.take k)
    rw [List.length_take, Nat.min_eq_left hk] at h2
    rw [h1, Nat.add_mul_mod_self_left, Nat.mod_eq_of_lt h2]
  · rw [List.take_of_length_le (by omega)]
    have h2 := leNat_lt l
    have : 256 ^ l.length ≤ 256 ^ k := Nat.pow_le_pow_right (by omega) (by omega)
    rw [Nat.mod_eq_of_lt (by omega)]

/-- Pieces of equal length: where a byte of the concatenation comes from. -/
theorem flatMap_uniform {α β : Type} {f : α → List β} {n : Nat} {l : List α} (h : ∀ a ∈ l, (f a).length = n) {i j : Nat}
    (hj : j < n) : (l.flatMap f)[i * n + j]? = (l[i]?).bind fun a => (f a)[j]? := by
  induction l generalizing i with
  | nil => simp
  | cons a l ih =>
    have ha : (f a).length = n := h a (by simp)
    rw [List.flatMap_cons]
    cases i with
    | zero => rw [List.getElem?_append_left (by omega)]; simp
    | succ i =>
      have : (i + 1) * n + j = n + (i * n + j) := by rw [Nat.succ_mul]; omega
      rw [this, List.getElem?_append_right (by omega), ha, Nat.add_sub_cancel_left,
        ih fun b hb => h b (List.mem_cons_of_mem _ hb)]
      simp

theorem flatMap_uniform_length {α β : Type} {f : α → List β} {n : Nat} {l : List α} (h : ∀ a ∈ l, (f a).length = n) :
    (l.flatMap f).length = l.length * n := by
  induction l with
  | nil => simp
  | cons a l ih =>
    rw [List.flatMap_cons, List.length_append, ih fun b hb => h b (List.mem_cons_of_mem _ hb), h a (by simp),
      List.length_cons, Nat.succ_mul]
    omega

namespace Fat
open Keramics.Spec.BlockTree (Answer)
open Keramics.BlockTree (Holds)

/-- The width of the entries of a format. -/
def width : Format → Spec.Fat.Width
  | .fat12 => .w12
  | .fat16 => .w16
  | .fat32 => .w32

theorem exists3 {l : List Byte} (h : 3 ≤ l.length) : ∃ a b c r, l = a :: b :: c :: r := by
  match l, h with
  | a :: b :: c :: r, _ => exact ⟨a, b, c, r, rfl⟩

theorem entryValue_eq (f : Format) (i : Nat) (T : List Byte) (h : entryOffset f i + entrySize f ≤ T.length) :
    entryValue f i ((T.drop (entryOffset f i)).take (entrySize f)) = .ok (Spec.Fat.stored (width f) T i) := by
  have hlen : ((T.drop (entryOffset f i)).take (entrySize f)).length = entrySize f := by
    rw [List.length_take, List.length_drop]; omega
  unfold Spec.Fat.stored
  cases f with
  | fat12 =>
    simp only [entryOffset, entrySize] at *
    have hd : 3 ≤ (T.drop (i / 2 * 3)).length := by rw [List.length_drop]; omega
    obtain ⟨a, b, c, r, hD⟩ := exists3 hd
    have h1 := leNat_drop T (i / 2 * 3)
    rw [hD] at h1
    simp only [leNat] at h1
    have ha := a.isLt
    have hb := b.isLt
    have hc := c.isLt
    simp only [width, Spec.Fat.Width.bits, hD]
    have hp : 256 ^ (i / 2 * 3) = 2 ^ (12 * (i / 2 * 2)) := by
      rw [show (256 : Nat) = 2 ^ 8 by rfl, ← Nat.pow_mul]; congr 1; omega
    rw [hp] at h1
    simp only [entryValue]
    split
    · rename_i hi
      have : 12 * i = 12 * (i / 2 * 2) := by omega
      rw [this, ← h1]
      simp only [u16le, R.slice, List.take, List.length_cons, List.length_nil, List.drop, R.ok_bind, leNat, R.pure_eq]
      simp only [Nat.zero_add, Nat.sub_zero, Nat.le_add_left, Nat.reduceLeDiff, and_self, if_true, R.ok_bind]
      rw [show (0x0fff : Nat) = 2 ^ 12 - 1 by rfl, Nat.and_two_pow_sub_one_eq_mod]
      simp only [List.take, leNat]
      congr 1
      omega
    · rename_i hi
      have : 12 * i = 12 * (i / 2 * 2) + 12 := by omega
      rw [this, Nat.pow_add, ← Nat.div_div_eq_div_mul, ← h1]
      simp only [u16le, R.slice, List.take, List.length_cons, List.length_nil, List.drop, R.ok_bind, leNat, R.pure_eq]
      simp only [Nat.zero_add, Nat.reduceAdd, Nat.reduceSub, Nat.reduceLeDiff, and_self, if_true, R.ok_bind]
      rw [Nat.shiftRight_eq_div_pow]
      simp only [List.take, leNat]
      congr 1
      omega
  | fat16 =>
    simp only [entryOffset, entrySize, entryValue, width, Spec.Fat.Width.bits] at *
    unfold u16le
    rw [R.slice_ok (by omega) (by omega), R.ok_bind, List.drop_zero, List.take_of_length_le (by omega), leNat_take, leNat_drop]
    simp only [R.pure_eq]
    rw [show (256 : Nat) = 2 ^ 8 by rfl, ← Nat.pow_mul, ← Nat.pow_mul, show 8 * (i * 2) = 16 * i by omega]
  | fat32 =>
    simp only [entryOffset, entrySize, entryValue, width, Spec.Fat.Width.bits] at *
    unfold u32le
    rw [R.slice_ok (by omega) (by omega), R.ok_bind, List.drop_zero, List.take_of_length_le (by omega), leNat_take, leNat_drop]
    simp only [R.pure_eq]
    rw [show (256 : Nat) = 2 ^ 8 by rfl, ← Nat.pow_mul, ← Nat.pow_mul, show 8 * (i * 4) = 32 * i by omega]

/-- Reading an entry that is in the table and in the data. -/
theorem readEntry_ok {t : Table} {U : List Byte} {i : Nat} (hi : i < t.entries)
    (hU : t.offset + entryOffset t.format i + entrySize t.format ≤ U.length) (h64 : U.length < 2 ^ 64) :
    readEntry t U i = .ok (Spec.Fat.stored (width t.format) (U.drop t.offset) i) := by
  unfold readEntry
  have hs : 0 < entrySize t.format := by unfold entrySize; split <;> omega
  rw [R.require_true hi, R.ok_bind, R.addU_ok (by omega), R.ok_bind, readExactAt_ok (by omega), R.ok_bind, ← List.drop_drop]
  exact entryValue_eq _ _ _ (by rw [List.length_drop]; omega)

theorem entryOffset_le (f : Format) (i : Nat) : entryOffset f i ≤ 4 * i := by
  unfold entryOffset; split <;> omega

/-- A successful read of an entry gives the stored bits. -/
theorem readEntry_sat {t : Table} (U : List Byte) (i : Nat) (hoff : t.offset < 2 ^ 63) (hn : t.entries ≤ 2 ^ 32) :
    R.Sat (readEntry t U i) fun v => i < t.entries ∧ v = Spec.Fat.stored (width t.format) (U.drop t.offset) i := by
  unfold readEntry
  refine R.Sat.bind R.sat_require fun _ hi => ?_
  have := entryOffset_le t.format i
  rw [R.addU_ok (by omega), R.ok_bind]
  refine R.Sat.bind (P := fun d => d = (U.drop (t.offset + entryOffset t.format i)).take (entrySize t.format) ∧
    t.offset + entryOffset t.format i + entrySize t.format ≤ U.length)
    (R.Sat.intro readExactAt_ne_panic fun a ha => ?_) fun d hd => ?_
  · obtain ⟨h1, h2⟩ := readExactAt_eq_ok.1 ha
    refine ⟨h1, ?_⟩
    rw [h1, List.length_take, List.length_drop] at h2
    have hs : 0 < entrySize t.format := by unfold entrySize; split <;> omega
    omega
  · rw [hd.1, ← List.drop_drop, entryValue_eq _ _ _ (by rw [List.length_drop]; omega)]
    exact ⟨hi, rfl⟩

/-! ## Following the chain -/

/-- Ranges of a chain, from a logical offset on. -/
def ranges (t : Table) (bs : Nat) : Nat → List Nat → List (Spec.BlockTree.Range Range)
  | _, [] => []
  | logical, c :: chain =>
    ⟨logical, bs, ⟨logical, t.firstCluster + (c - 2) * t.clusterSize, bs⟩⟩ :: ranges t bs (logical + bs) chain

/-- Conditions under which no arithmetic of the code overflows. -/
structure Typed (t : Table) (bs : Nat) : Prop where
  bs_pos : 0 < bs
  bs_lt : bs < 2 ^ 32
  offset_lt : t.offset < 2 ^ 63
  entries_le : t.entries < 2 ^ 32
  first_lt : t.firstCluster < 2 ^ 63
  cluster_lt : t.clusterSize < 2 ^ 32

theorem largest_le (t : Table) : largest t ≤ 2 ^ 28 := by unfold largest; split <;> omega

theorem physical_lt {t : Table} {bs : Nat} (ht : Typed t bs) {c : Nat} (hc : c < largest t) :
    (c - 2) * t.clusterSize < 2 ^ 60 := by
  have h1 := largest_le t
  have h2 : (c - 2) * t.clusterSize ≤ 2 ^ 28 * t.clusterSize := Nat.mul_le_mul_right _ (by omega)
  have h3 := ht.cluster_lt
  omega

/-- What the loop does: it follows the stored entries until a value outside the clusters, without
meeting a cluster twice, and inserts one range per cluster. -/
theorem openLoop_sat {t : Table} {U : List Byte} {bs : Nat} (ht : Typed t bs) (fuel : Nat) {c : Nat} {visited : List Nat}
    {logical : Nat} {tree : BlockTree.Tree Range} {rs : List (Spec.BlockTree.Range Range)} (hh : Holds tree rs)
    (hp : tree.perNode = 0) (hl : tree.leafSize = bs) (hd : tree.dataSize < 2 ^ 63) (hal : bs ∣ logical)
    (hle : logical ≤ tree.dataSize)
    (hup : ∀ r ∈ rs, r.offset + r.size ≤ logical) (hnd : visited.Nodup) (hv : ∀ x ∈ visited, x < t.entries)
    (hf : t.entries < visited.length + fuel) :
    R.Sat (openLoop t U bs fuel c visited logical tree) fun tree' => ∃ chain,
      Holds tree' (rs ++ ranges t bs logical chain) ∧ tree'.dataSize = tree.dataSize ∧
      logical + chain.length * bs ≤ tree.dataSize ∧
      (∀ x ∈ chain, 2 ≤ x ∧ x < largest t) ∧
      (∃ k, chain.length = k ∧ ¬(2 ≤ Nat.iterate (Spec.Fat.stored (width t.format) (U.drop t.offset)) k c ∧
        Nat.iterate (Spec.Fat.stored (width t.format) (U.drop t.offset)) k c < largest t)) := by
  induction fuel generalizing c visited logical tree rs with
  | zero =>
    have hlen : visited.length ≤ t.entries := by
      have h1 : visited ⊆ List.range t.entries := fun x hx => List.mem_range.2 (hv x hx)
      have := (List.subperm_of_subset hnd h1).length_le
      rwa [List.length_range] at this
    omega
  | succ fuel ih =>
    unfold openLoop
    split
    · rename_i hc
      simp only
      refine R.Sat.bind R.sat_require fun _ hnv => ?_
      have hphys := physical_lt ht hc.2
      have := ht.first_lt
      have := ht.bs_lt
      rw [R.mulU_ok (by omega), R.ok_bind, R.addU_ok (by omega), R.ok_bind]
      rcases BlockTree.append_flat hh (off := logical) (size := bs)
        (v := ⟨logical, t.firstCluster + (c - 2) * t.clusterSize, bs⟩) (by omega) ht.bs_pos (by omega)
        (by omega) (hl ▸ hal) (hl ▸ Nat.dvd_refl _) hup with ⟨hin, tree', h1, h2, h3, h4, h5⟩ | ⟨_, h⟩
      · rw [h1, R.ok_bind, R.addU_ok (by omega), R.ok_bind]
        refine R.Sat.bind (readEntry_sat U c ht.offset_lt (by have := ht.entries_le; omega)) fun next ⟨hce, hnext⟩ => ?_
        refine R.Sat.mono (ih (c := next) (visited := c :: visited) (logical := logical + bs) h2 (by omega) (by omega)
          (by omega) (Nat.dvd_add hal (Nat.dvd_refl _)) (by omega) ?_ (List.nodup_cons.2 ⟨hnv, hnd⟩) ?_
          (by simp only [List.length_cons]; omega)) ?_
        · intro r hr
          rcases List.mem_append.1 hr with hr | hr
          · have := hup r hr; omega
          · rw [List.mem_singleton.1 hr]
        · intro x hx
          rcases List.mem_cons.1 hx with rfl | hx
          · exact hce
          · exact hv x hx
        · rintro tree'' ⟨chain, c1, c2, c3, c4, k, c5, c6⟩
          refine ⟨c :: chain, ?_, by omega, ?_, ?_, k + 1, by simp [c5], ?_⟩
          · simpa [ranges] using c1
          · rw [List.length_cons, Nat.succ_mul]; omega
          · intro x hx
            rcases List.mem_cons.1 hx with rfl | hx
            · exact hc
            · exact c4 x hx
          · rw [Nat.iterate, ← hnext]; exact c6
      · rw [h]; exact R.sat_err
    · rename_i hc
      exact ⟨[], by simpa [ranges] using hh, rfl, by simpa using hle, by simp, 0, rfl, hc⟩

/-! ## A chain that ends -/

theorem width_facts (f : Format) : (width f).bad < (width f).endMark := by cases f <;> decide

theorem chain_unique {w : Spec.Fat.Width} (hw : w.bad < w.endMark) {T : List Byte} {c : Nat} {l l' : List Nat}
    (h : Spec.Fat.Chain w T c l) (h' : Spec.Fat.Chain w T c l') : l = l' := by
  induction h generalizing l' with
  | last h1 => cases h' with
    | last _ => rfl
    | next _ h2 _ => omega
  | next _ h1 _ ih => cases h' with
    | last h2 => omega
    | next _ _ h2 => rw [ih h2]

theorem chain_suffix {w : Spec.Fat.Width} {T : List Byte} {c x : Nat} {l : List Nat}
    (h : Spec.Fat.Chain w T c l) (hx : x ∈ l) : ∃ l', Spec.Fat.Chain w T x l' ∧ l'.length ≤ l.length := by
  induction h with
  | last _ => cases hx
  | @next c chain h1 h2 h3 ih =>
    rcases List.mem_cons.1 hx with rfl | hx
    · exact ⟨_, .next h1 h2 h3, Nat.le_refl _⟩
    · obtain ⟨l', h4, h5⟩ := ih hx
      exact ⟨l', h4, by simp; omega⟩

/-- A chain that ends has no cluster twice. -/
theorem chain_nodup {w : Spec.Fat.Width} (hw : w.bad < w.endMark) {T : List Byte} {c : Nat} {l : List Nat}
    (h : Spec.Fat.Chain w T c l) : l.Nodup := by
  induction h with
  | last _ => exact List.nodup_nil
  | @next c chain h1 h2 h3 ih =>
    refine List.nodup_cons.2 ⟨fun hm => ?_, ih⟩
    obtain ⟨l', h4, h5⟩ := chain_suffix h3 hm
    have := chain_unique hw h4 (.next h1 h2 h3)
    rw [this] at h5
    simp at h5

/-- The numbers from which on the code takes an entry for an end mark. -/
def limit : Spec.Fat.Width → Nat
  | .w12 => 0xff0
  | .w16 => 0xfff0
  | .w32 => 0x0ffffff0

theorem largest_eq (t : Table) : largest t = limit (width t.format) := by
  unfold largest; split <;> rename_i h <;> rw [h] <;> rfl

theorem room {t : Table} {U : List Byte} {i : Nat} (h : t.offset + (width t.format).bits * (i + 1) / 8 + 2 ≤ U.length) :
    t.offset + entryOffset t.format i + entrySize t.format ≤ U.length := by
  revert h
  unfold entryOffset entrySize
  split <;> rename_i h <;> rw [h] <;> simp only [width, Spec.Fat.Width.bits] <;> omega

theorem no_room {t : Table} {U : List Byte} {i : Nat} (h : U.length < t.offset + ((width t.format).bits * (i + 1) + 7) / 8) :
    U.length < t.offset + entryOffset t.format i + entrySize t.format := by
  revert h
  unfold entryOffset entrySize
  split <;> rename_i h <;> rw [h] <;> simp only [width, Spec.Fat.Width.bits] <;> omega

/-- The entries of the chain can be read, have no reserved bits, and the clusters are such the code
accepts. -/
structure Readable (t : Table) (U : List Byte) (x : Nat) : Prop where
  entry : x < t.entries
  data : t.offset + entryOffset t.format x + entrySize t.format ≤ U.length
  reserved : Spec.Fat.stored (width t.format) (U.drop t.offset) x = Spec.Fat.entry (width t.format) (U.drop t.offset) x
  number : x < largest t

theorem openLoop_ok {t : Table} {U : List Byte} {bs : Nat} (ht : Typed t bs) (hU : U.length < 2 ^ 64) {chain : List Nat}
    (hread : ∀ x ∈ chain, Readable t U x) {c : Nat}
    (hchain : Spec.Fat.Chain (width t.format) (U.drop t.offset) c chain) (fuel : Nat) {visited : List Nat}
    {logical : Nat} {tree : BlockTree.Tree Range} {rs : List (Spec.BlockTree.Range Range)} (hh : Holds tree rs)
    (hp : tree.perNode = 0) (hl : tree.leafSize = bs) (hd : tree.dataSize < 2 ^ 63) (hal : bs ∣ logical)
    (hle : logical + chain.length * bs ≤ tree.dataSize) (hup : ∀ r ∈ rs, r.offset + r.size ≤ logical)
    (hdis : ∀ x ∈ chain, x ∉ visited) (hf : chain.length ≤ fuel) :
    ∃ tree', openLoop t U bs fuel c visited logical tree = .ok tree' ∧ Holds tree' (rs ++ ranges t bs logical chain) ∧
      tree'.dataSize = tree.dataSize := by
  have hnd := chain_nodup (width_facts t.format) hchain
  induction hchain generalizing visited logical tree rs fuel with
  | @last c hend =>
    have hc : ¬(2 ≤ c ∧ c < largest t) := by
      have : largest t ≤ (width t.format).endMark := by unfold largest; split <;> rename_i h <;> rw [h] <;> decide
      omega
    refine ⟨tree, ?_, by simpa [ranges] using hh, rfl⟩
    unfold openLoop
    rw [if_neg hc]
  | @next c chain h1 h2 h3 ih =>
    obtain ⟨r1, r2, r3, r4⟩ := hread c (by simp)
    rw [List.length_cons, Nat.succ_mul] at hle
    have hphys := physical_lt ht r4
    have := ht.first_lt
    have := ht.bs_lt
    cases fuel with
    | zero => simp at hf
    | succ fuel =>
      have hc : 2 ≤ c ∧ c < largest t := ⟨h1, r4⟩
      obtain ⟨tree', i1, i2, i3, i4, i5⟩ := BlockTree.insert_flat hh (off := logical) (size := bs)
        (v := ⟨logical, t.firstCluster + (c - 2) * t.clusterSize, bs⟩) (by omega) ht.bs_pos (by omega)
        (by omega) (hl ▸ hal) (hl ▸ Nat.dvd_refl _) (fun r hr => BlockTree.apart_of_le (hup r hr))
      obtain ⟨tree'', e1, e2, e3⟩ := ih (fun x hx => hread x (List.mem_cons_of_mem _ hx)) fuel (visited := c :: visited)
        (logical := logical + bs) i2 (by omega) (by omega) (by omega) (Nat.dvd_add hal (Nat.dvd_refl _)) (by omega)
        (fun r hr => by
          rcases List.mem_append.1 hr with hr | hr
          · have := hup r hr; omega
          · rw [List.mem_singleton.1 hr])
        (fun x hx => by
          intro hm
          rcases List.mem_cons.1 hm with e | hm
          · exact (List.nodup_cons.1 hnd).1 (e ▸ hx)
          · exact hdis x (List.mem_cons_of_mem _ hx) hm)
        (by simpa using hf) (List.nodup_cons.1 hnd).2
      refine ⟨tree'', ?_, by simpa [ranges] using e2, by omega⟩
      unfold openLoop
      rw [if_pos hc]
      simp only
      rw [R.require_true (hdis c (by simp)), R.ok_bind, R.mulU_ok (by omega), R.ok_bind, R.addU_ok (by omega), R.ok_bind,
        i1, R.ok_bind, R.addU_ok (by omega), R.ok_bind, readEntry_ok r1 r2 hU, R.ok_bind, r3]
      exact e1

theorem ranges_mem {t : Table} {bs logical : Nat} {chain : List Nat} {i c : Nat} (h : chain[i]? = some c) :
    (⟨logical + i * bs, bs, ⟨logical + i * bs, t.firstCluster + (c - 2) * t.clusterSize, bs⟩⟩ :
      Spec.BlockTree.Range Range) ∈ ranges t bs logical chain := by
  induction chain generalizing logical i with
  | nil => simp at h
  | cons x chain ih =>
    cases i with
    | zero => simp at h; subst h; simp [ranges]
    | succ i =>
      have := ih (logical := logical + bs) (i := i) (by simpa using h)
      rw [show logical + bs + i * bs = logical + (i + 1) * bs by rw [Nat.succ_mul]; omega] at this
      exact List.mem_cons_of_mem _ this

/-- One iteration of the read loop on a tree that holds the ranges of the chain. -/
theorem piece_eq {t : Table} {U : List Byte} {bs : Nat} (ht : Typed t bs) {chain : List Nat}
    {tree : BlockTree.Tree Range} (hh : Holds tree (ranges t bs 0 chain)) (hn : ∀ x ∈ chain, x < largest t) {pos want c : Nat}
    (hc : chain[pos / bs]? = some c) (hin : pos < tree.dataSize) :
    piece U tree () pos want = .ok (Blocks.readAt U (t.firstCluster + (c - 2) * t.clusterSize + pos % bs)
      (min want (bs - pos % bs)), ()) := by
  have hbs := ht.bs_pos
  have hm := ranges_mem (t := t) (bs := bs) (logical := 0) hc
  have hdm := Nat.div_add_mod pos bs
  have hlt := Nat.mod_lt pos hbs
  rw [Nat.mul_comm] at hdm
  have hphys := physical_lt ht (hn c (List.mem_of_getElem? hc))
  have h1 := ht.first_lt
  have h2 := ht.bs_lt
  unfold piece
  rw [BlockTree.get_range hh hm (x := pos) ⟨by simp only [Nat.zero_add]; omega, by simp only [Nat.zero_add]; omega⟩ hin]
  simp only [R.ok_bind, orErr, Nat.zero_add]
  rw [R.subU_ok (by omega), R.ok_bind, R.subU_ok (by omega), R.ok_bind, R.addU_ok (by omega), R.ok_bind,
    show pos - pos / bs * bs = pos % bs by omega]
  rfl

end Fat
end Keramics
