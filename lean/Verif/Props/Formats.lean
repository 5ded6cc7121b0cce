import Verif.Props.Sigscan
import Verif.Spec.Formats

/-!
# C60: format recognition
-/

namespace Keramics.Props
open Keramics Keramics.Spec Keramics.Sigscan

/-! ## A scan does not fail -/

private theorem scan_total {s : Signature} {o size : Nat} {buffer : List Byte} {b : Nat} (hs : s.type ≠ .unbound)
    (h1 : s.offset + s.pattern.length ≤ size) (h2 : size < 2 ^ 63) : ∃ r, s.scan o size buffer b = .ok r := by
  obtain ⟨p, hp, hle⟩ : ∃ p, s.position o size = .ok p ∧ p ≤ size := by
    unfold Signature.position
    cases e : s.type with
    | boundToEnd => exact ⟨size - s.offset, by simp only; rw [R.subU_ok (by omega)], by omega⟩
    | boundToStart => exact ⟨s.offset, rfl, by omega⟩
    | unbound => exact absurd e hs
  unfold Signature.scan
  rw [hp, R.ok_bind]
  by_cases h : p < o
  · exact ⟨_, by rw [if_pos h]; rfl⟩
  rw [if_neg h]
  simp only [if_neg hs]
  rw [R.addU_ok (by omega), R.ok_bind]
  by_cases h' : p - o + s.pattern.length > buffer.length ∨ p - o + s.pattern.length > size
  · exact ⟨_, by rw [if_pos h']; rfl⟩
  rw [if_neg h', R.slice_ok (by omega) (by omega), R.ok_bind]
  split
  · exact ⟨_, rfl⟩
  · exact ⟨_, rfl⟩

private theorem tree_total {S : Signature → Prop} {t : Tree} (ht : Leaves S t) {o size b : Nat} {buffer : List Byte}
    (hS : ∀ s, S s → ∃ r, s.scan o size buffer b = .ok r) : ∃ r, t.scan o size buffer b = .ok r := by
  induction t with
  | absent => exact ⟨_, rfl⟩
  | leaf s =>
    obtain ⟨r, hr⟩ := hS s ht
    exact ⟨_, by rw [Tree.scan, hr]; rfl⟩
  | node k objects ih =>
    rw [Tree.scan]
    split
    · exact ⟨_, rfl⟩
    simp only
    split
    · exact ih none (ht none)
    · split
      · exact ih none (ht none)
      · rename_i u hu
        have hl := ht (byteAt o size buffer (b + k))
        rw [hu] at hl
        obtain ⟨r, hr⟩ := hS u hl
        rw [hr, R.ok_bind]
        cases r with
        | true => exact ⟨_, rfl⟩
        | false => exact ih none (ht none)
      · exact ih _ (ht _)

private theorem fill_smallest {signatures : List Signature} {t : SkipTable} (h : SkipTable.fill signatures = .ok t) : t.smallest = smallestSize signatures 0 := by
  have step : ∀ (bytes : List Byte) (st : SkipTable × Nat), (bytes.foldl skipStep st).1.smallest = st.1.smallest := by
    intro bytes
    induction bytes with
    | nil => intro st; rfl
    | cons b bytes ih =>
      intro st
      rw [List.foldl_cons, ih]
      unfold skipStep
      simp only
      split
      · split <;> rfl
      · rfl
  have key : ∀ (l : List Signature) (n : Nat) (a t : SkipTable), l.foldlM (fun table s => do
      let bytes ← R.slice s.pattern 0 n
      return (bytes.foldl skipStep (table, n)).1) a = R.ok t → t.smallest = a.smallest := by
    intro l
    induction l with
    | nil => intro n a t h; cases h; rfl
    | cons s l ih =>
      intro n a t h
      rw [List.foldlM_cons] at h
      obtain ⟨b, hb, h⟩ := R.bind_eq_ok.1 h
      obtain ⟨bytes, -, hb⟩ := R.bind_eq_ok.1 hb
      cases hb
      rw [ih n _ t h, step]
  exact key _ _ _ _ h

private theorem smallestSize_ge (l : List Signature) (n : Nat) (hl : ∀ s ∈ l, 2 ≤ s.pattern.length) (hn : n = 0 ∧ l ≠ [] ∨ 2 ≤ n) : 2 ≤ smallestSize l n := by
  induction l generalizing n with
  | nil => rcases hn with ⟨-, h⟩ | h
           · exact absurd rfl h
           · exact h
  | cons s l ih =>
    have hs := hl s (by simp)
    refine ih _ (fun u hu => hl u (List.mem_cons_of_mem _ hu)) (.inr ?_)
    simp only
    split <;> omega

private theorem skip_total {tree : ScanTree} {buffer : List Byte} {b : Nat} (h1 : 2 ≤ tree.skip.smallest) (h2 : 2 ≤ buffer.length) (ht : tree.type ≠ .unbound) :
    ∃ v, skipValue tree buffer b = .ok v := by
  unfold skipValue
  rw [R.subU_ok (by omega), R.ok_bind]
  obtain ⟨i, hi⟩ : ∃ i, min (b + min buffer.length tree.skip.smallest - 1) (buffer.length - 1) = i + 1 :=
    ⟨min (b + min buffer.length tree.skip.smallest - 1) (buffer.length - 1) - 1, by omega⟩
  rw [hi, skipLoop]
  obtain ⟨x, hx⟩ : ∃ x, R.get buffer (i + 1) = .ok x := ⟨buffer[i + 1]'(by omega), by unfold R.get; rw [List.getElem?_eq_getElem]⟩
  rw [hx, R.ok_bind]
  simp only [if_neg ht]
  refine ⟨_, if_pos (.inr ?_)⟩
  split
  · omega
  · assumption

private theorem scanWith_total {depth : Nat} {type : PatternType} {signatures : List Signature} {tree : ScanTree}
    (h : ScanTree.build depth type signatures = .ok tree) (htype : type ≠ .unbound) (hne : ∃ s ∈ signatures, s.type = type)
    (hl : ∀ s ∈ signatures, 2 ≤ s.pattern.length) {size : Nat} (hsize : size < 2 ^ 63) (he : ∀ s ∈ signatures, s.offset + s.pattern.length ≤ size)
    {o : Nat} {buffer : List Byte} (hbuf : 2 ≤ buffer.length) {rounds b : Nat} {results : Results} :
    ∃ r, scanWith tree o size buffer (rounds + 1) b results = .ok r := by
  have hty := (scanTree_parts h).1
  have hub : tree.type ≠ .unbound := by rw [hty]; exact htype
  have hskip : tree.skip.smallest = smallestSize signatures 0 := by
    unfold ScanTree.build at h
    simp only at h
    split at h
    · rename_i e
      obtain ⟨s, hs, hst⟩ := hne
      exact absurd hst (by have := List.filter_eq_nil_iff.1 e s hs; simpa using this)
    · obtain ⟨root, hr, h⟩ := R.bind_eq_ok.1 h
      obtain ⟨skip, hk, h⟩ := R.bind_eq_ok.1 h
      cases h
      exact fill_smallest hk
  have hsm : 2 ≤ tree.skip.smallest := by
    rw [hskip]
    exact smallestSize_ge _ _ hl (.inl ⟨rfl, fun e => by obtain ⟨s, hs, -⟩ := hne; rw [e] at hs; cases hs⟩)
  have hleaf := leaves_of h
  have hS : ∀ s, (s ∈ signatures ∧ s.type = tree.type) → ∃ r, s.scan o size buffer b = .ok r :=
    fun s ⟨hs, hst⟩ => scan_total (by rw [hst]; exact hub) (he s hs) hsize
  rw [scanWith]
  split
  · obtain ⟨found, hf⟩ := tree_total hleaf hS
    rw [hf, R.ok_bind]
    cases found with
    | none =>
      obtain ⟨v, hv⟩ := skip_total (b := b) hsm hbuf hub
      rw [record, hv, R.ok_bind]
      exact ⟨results, by simp [hub]⟩
    | some s =>
      obtain ⟨⟨hs, hst⟩, -⟩ := tree_found hleaf hf
      obtain ⟨p, hp⟩ : ∃ p, s.position o size = .ok p := by
        unfold Signature.position
        have := he s hs
        cases e : s.type with
        | boundToEnd => exact ⟨size - s.offset, by simp only; rw [R.subU_ok (by omega)]⟩
        | boundToStart => exact ⟨s.offset, rfl⟩
        | unbound => exact absurd (hst.symm.trans e) hub
      rw [record, hp, R.ok_bind]
      exact ⟨fun o => if o = p then some s else results o, by simp [hub]⟩
  · exact ⟨_, rfl⟩

private theorem tree_range {depth : Nat} {type : PatternType} {signatures : List Signature} {tree : ScanTree}
    (h : ScanTree.build depth type signatures = .ok tree) {size : Nat} (he : ∀ s ∈ signatures, s.offset + s.pattern.length ≤ size)
    (hl : ∀ s ∈ signatures, 2 ≤ s.pattern.length) : tree.rangeEnd ≤ size ∧ (tree.rangeEnd = 0 ∨ 2 ≤ tree.rangeEnd ∧ ∃ s ∈ signatures, s.type = type) := by
  obtain ⟨-, ⟨-, rfl⟩ | ⟨-, hr⟩⟩ := scanTree_parts h
  · exact ⟨Nat.zero_le _, .inl rfl⟩
  · rw [hr]
    refine ⟨foldl_max_le _ 0 _ (fun s hs => he s (List.mem_filter.1 hs).1) (Nat.zero_le _), ?_⟩
    cases e : signatures.filter fun s => decide (s.type = type) with
    | nil => exact .inl rfl
    | cons s l =>
      have hs : s ∈ signatures.filter fun s => decide (s.type = type) := by rw [e]; simp
      have h2 := List.mem_filter.1 hs
      have := (le_foldl_max (signatures.filter fun s => decide (s.type = type)) 0).2 s hs
      rw [e] at this
      have := hl s h2.1
      exact .inr ⟨by unfold largestEnd; omega, s, h2.1, by simpa using h2.2⟩

private theorem scanBuffer_total {depth : Nat} {signatures : List Signature} {scanner : Scanner} (hb : Scanner.build depth signatures = .ok scanner)
    (hub : ∀ s ∈ signatures, s.type ≠ .unbound) (hl : ∀ s ∈ signatures, 2 ≤ s.pattern.length) {size : Nat} (hsize : size < 2 ^ 63)
    (he : ∀ s ∈ signatures, s.offset + s.pattern.length ≤ size) {o : Nat} {buffer : List Byte} (hbuf : 2 ≤ buffer.length ∨ buffer = [])
    (hin : o + buffer.length ≤ size) (results : Results) : ∃ r, scanBuffer scanner o size buffer results = .ok r := by
  obtain ⟨b1, b2, b3⟩ := scanner_parts hb
  obtain ⟨r1, n1⟩ := tree_range b1 he hl
  obtain ⟨r2, n2⟩ := tree_range b2 he hl
  obtain ⟨r3, n3⟩ := tree_range b3 he hl
  unfold scanBuffer
  by_cases hnil : buffer = []
  · rw [if_pos hnil]; exact ⟨_, rfl⟩
  rw [if_neg hnil]
  have hlen : 2 ≤ buffer.length := hbuf.resolve_right hnil
  obtain ⟨a, ha⟩ : ∃ a, scanHeader scanner o size buffer results = .ok a := by
    unfold scanHeader
    split
    · exact scanWith_total b1 (by simp) (by rcases n1 with h | h
                                            · omega
                                            · exact h.2) hl hsize he hlen
    · exact ⟨_, rfl⟩
  rw [ha, R.ok_bind]
  obtain ⟨c, hc⟩ : ∃ c, scanFooter scanner o size buffer a = .ok c := by
    unfold scanFooter
    simp only
    split
    · rcases n2 with h | h
      · rw [scanWith, if_neg (by omega)]; exact ⟨_, rfl⟩
      · exact scanWith_total b2 (by simp) h.2 hl hsize he hlen
    · exact ⟨_, rfl⟩
  rw [hc, R.ok_bind]
  unfold scanUnbound
  rw [if_neg]
  · exact ⟨_, rfl⟩
  · rcases n3 with h | ⟨-, s, hs, hst⟩
    · omega
    · exact absurd hst (hub s hs)

private theorem scanStream_total {depth : Nat} {signatures : List Signature} {scanner : Scanner} (hb : Scanner.build depth signatures = .ok scanner)
    (hub : ∀ s ∈ signatures, s.type ≠ .unbound) (hl : ∀ s ∈ signatures, 2 ≤ s.pattern.length) {data : List Byte} (hsize : data.length < 2 ^ 63)
    (he : ∀ s ∈ signatures, s.offset + s.pattern.length ≤ data.length) : ∃ r, scanStream scanner data = .ok r := by
  obtain ⟨start, footer, e, -, -, h3, h4⟩ := stream_holds hb (data := data) (fun s hs _ => he s hs)
  obtain ⟨b1, b2, -⟩ := scanner_parts hb
  obtain ⟨r1, n1⟩ := tree_range b1 he hl
  obtain ⟨r2, n2⟩ := tree_range b2 he hl
  have hlen : ∀ o n, (filled data o n).length = n := fun o n => by unfold filled; simp
  rw [e]
  unfold scanAll
  obtain ⟨a, ha⟩ := scanBuffer_total hb hub hl hsize he (o := 0) (buffer := filled data 0 scanner.header.rangeEnd)
    (by rw [hlen]; rcases n1 with h | h
        · exact .inr (List.eq_nil_of_length_eq_zero (by rw [hlen]; exact h))
        · exact .inl h.1) (by rw [hlen]; omega) (fun _ => none)
  obtain ⟨c, hc⟩ := scanBuffer_total hb hub hl hsize he (o := start) (buffer := filled data start footer)
    (by rw [hlen]; rcases n2 with h | h
        · exact .inr (List.eq_nil_of_length_eq_zero (by rw [hlen]; omega))
        · exact .inl (by omega)) (by rw [hlen]; omega) a
  exact ⟨c, by simp only [List.foldlM_cons, List.foldlM_nil, ha, R.ok_bind, hc, R.pure_eq]⟩

/-! ## C60 -/

private theorem hasAt_iff {data : List Byte} {o : Nat} {bytes : List Byte} :
    HasAt data o bytes ↔ (o + bytes.length ≤ data.length ∨ bytes = []) ∧ ∀ i, i < bytes.length → data[o + i]? = bytes[i]? := by
  unfold HasAt
  constructor
  · intro h
    constructor
    · by_cases hb : bytes = []
      · exact .inr hb
      · have := congrArg List.length h
        rw [List.length_take, List.length_drop] at this
        have : 0 < bytes.length := List.length_pos_iff.2 hb
        omega
    · intro i hi
      rw [← List.getElem?_drop, ← List.getElem?_take_of_lt hi, h]
  · rintro ⟨-, h⟩
    refine List.ext_getElem? fun i => ?_
    by_cases hi : i < bytes.length
    · rw [List.getElem?_take_of_lt hi, List.getElem?_drop, h i hi]
    · rw [List.getElem?_eq_none (by simp; omega), List.getElem?_eq_none (by omega)]

private theorem occurs_start {data : List Byte} {s : Signature} {k : Nat} (hs : s.type = .boundToStart) (hp : s.pattern ≠ []) :
    OccursAt data s k ↔ k = s.offset ∧ HasAt data s.offset s.pattern := by
  unfold OccursAt
  rw [hasAt_iff, hs]
  constructor
  · rintro ⟨h1, h2, h3⟩
    have h3 : k = s.offset := h3
    subst h3
    exact ⟨rfl, .inl h1, h2⟩
  · rintro ⟨rfl, h1, h2⟩
    exact ⟨h1.resolve_right hp, h2, rfl⟩

private theorem occurs_end {data : List Byte} {s : Signature} {k : Nat} (hs : s.type = .boundToEnd) (hp : s.pattern ≠ []) :
    OccursAt data s k ↔ k = data.length - s.offset ∧ s.offset ≤ data.length ∧ HasAt data (data.length - s.offset) s.pattern := by
  unfold OccursAt
  rw [hasAt_iff, hs]
  constructor
  · rintro ⟨h1, h2, h3⟩
    have h3 : k + s.offset = data.length := h3
    have : k = data.length - s.offset := by omega
    subst this
    exact ⟨rfl, by omega, .inl h1, h2⟩
  · rintro ⟨rfl, h0, h1, h2⟩
    exact ⟨h1.resolve_right hp, h2, show data.length - s.offset + s.offset = data.length by omega⟩

/-- The signatures of a format are those of the specification. -/
private theorem hasFormat_iff (data : List Byte) (f : Format) : HasFormat data f ↔ ∃ s ∈ signaturesOf f, ∃ k, OccursAt data s k := by
  have st : ∀ (id : String) (o : Nat) (p : List Byte), p ≠ [] → ((∃ k, OccursAt data ⟨id, .boundToStart, o, p⟩ k) ↔ HasAt data o p) := by
    intro id o p hp
    simp only [occurs_start (s := ⟨id, .boundToStart, o, p⟩) rfl hp]
    exact ⟨fun ⟨_, _, h⟩ => h, fun h => ⟨_, rfl, h⟩⟩
  have en : ∀ (id : String) (o : Nat) (p : List Byte), p ≠ [] → ((∃ k, OccursAt data ⟨id, .boundToEnd, o, p⟩ k) ↔ o ≤ data.length ∧ HasAt data (data.length - o) p) := by
    intro id o p hp
    simp only [occurs_end (s := ⟨id, .boundToEnd, o, p⟩) rfl hp]
    exact ⟨fun ⟨_, _, h⟩ => h, fun h => ⟨_, rfl, h⟩⟩
  cases f <;> simp only [signaturesOf, apmSignatures, extSignatures, ewfSignatures, fatSignatures, gptSignatures, mbrSignatures, ntfsSignatures, qcowSignatures,
    sparseimageSignatures, udifSignatures, vhdSignatures, vhdxSignatures, List.mem_cons, List.not_mem_nil, or_false, exists_eq_or_imp, exists_eq_left, HasFormat,
    st _ _ _ (List.cons_ne_nil _ _), en _ _ _ (List.cons_ne_nil _ _), false_and, exists_false]
  all_goals rfl

private theorem format_of {s : Signature} {g : Format} (h : s ∈ signaturesOf g) : formatOf s.identifier = g := by
  have : ∀ s ∈ signaturesOf g, formatOf s.identifier = g := by cases g <;> decide
  exact this s h

private theorem signature_facts {s : Signature} {g : Format} (h : s ∈ signaturesOf g) :
    s.type ≠ .unbound ∧ 2 ≤ s.pattern.length ∧ (s.type = .boundToEnd → (g = .udif ∨ g = .vhd) ∧ s.offset + s.pattern.length ≤ 520) := by
  have : ∀ s ∈ signaturesOf g, s.type ≠ .unbound ∧ 2 ≤ s.pattern.length ∧ (s.type = .boundToEnd → (g = .udif ∨ g = .vhd) ∧ s.offset + s.pattern.length ≤ 520) := by
    cases g <;> decide
  exact this s h

private theorem mem_signatures {formats : List Format} {s : Signature} (h : s ∈ formats.flatMap signaturesOf) : ∃ g ∈ formats, s ∈ signaturesOf g :=
  List.mem_flatMap.1 h

/-- C60: every format that a format scanner reports for a stream is one it was asked for, and the stream has the bytes of the format
at their place. Missing: streams of less than 520 bytes that are scanned for the formats that have a footer, for which it does not
hold (`C60_violated_small`). -/
theorem C60_sound_partial (depth : Nat) (formats : List Format) (scanner : Scanner) (hb : Scanner.build depth (formats.flatMap signaturesOf) = .ok scanner)
    (data : List Byte) (hsize : .udif ∈ formats ∨ .vhd ∈ formats → 520 ≤ data.length) (found : Format → Prop) (h : scanFormats scanner data = .ok found)
    (f : Format) (hf : found f) : f ∈ formats ∧ HasFormat data f := by
  obtain ⟨results, hr, h⟩ := R.bind_eq_ok.1 h
  cases h
  obtain ⟨k, s, hk, rfl⟩ := hf
  have hend : ∀ s ∈ formats.flatMap signaturesOf, s.type = .boundToEnd → s.offset + s.pattern.length ≤ data.length := by
    intro s hs hst
    obtain ⟨g, hg, hs⟩ := mem_signatures hs
    obtain ⟨h1, h2⟩ := (signature_facts hs).2.2 hst
    refine Nat.le_trans h2 (hsize ?_)
    rcases h1 with rfl | rfl
    · exact .inl hg
    · exact .inr hg
  have hub : s.type ≠ .unbound := by
    obtain ⟨g, -, hs⟩ := mem_signatures (reported_mem hb hend hr hk)
    exact (signature_facts hs).1
  obtain ⟨hs, ho⟩ := C47_stream_partial depth _ scanner hb data hend results hr k s hk hub
  obtain ⟨g, hg, hs⟩ := mem_signatures hs
  rw [format_of hs]
  exact ⟨hg, (hasFormat_iff data g).2 ⟨s, hs, k, ho⟩⟩

private theorem prefixes {data : List Byte} {o : Nat} {p q : List Byte} (hp : HasAt data o p) (hq : HasAt data o q) : p.take q.length = q.take p.length := by
  unfold HasAt at hp hq
  rw [← hp, ← hq]
  simp only [List.length_take, List.length_drop, List.take_take]
  congr 1
  omega

/-- The signatures of all formats. -/
private def all : List Signature := [Format.apm, .ext, .ewf, .fat, .ntfs, .qcow, .sparseImage, .udif, .vhd, .vhdx].flatMap signaturesOf

private theorem mem_all {s : Signature} {g : Format} (h : s ∈ signaturesOf g) (h1 : g ≠ .gpt) (h2 : g ≠ .mbr) : s ∈ all := by
  have : ∀ s ∈ signaturesOf g, s ∈ all := by
    cases g <;> first | exact absurd rfl h1 | exact absurd rfl h2 | decide
  exact this s h

private theorem all_patterns : ∀ s ∈ all, ∀ u ∈ all, u.pattern = s.pattern → u = s := by decide +kernel

private theorem fat_cases : ∀ s ∈ signaturesOf .fat, s.type = .boundToStart ∧ (s = ⟨"fat1", .boundToStart, 54, ascii "FAT12   "⟩ ∨
    s = ⟨"fat2", .boundToStart, 54, ascii "FAT16   "⟩ ∨ s = ⟨"fat3", .boundToStart, 82, ascii "FAT32   "⟩) := by decide +kernel

private theorem qcow_cases : ∀ s ∈ signaturesOf .qcow, (s.type = .boundToStart ∧ s.offset = 0) ∧
    ∀ u ∈ signaturesOf .qcow, u.pattern.take s.pattern.length = s.pattern.take u.pattern.length → u = s := by decide +kernel

private theorem fat_prefix : (ascii "FAT12   ").take (ascii "FAT16   ").length ≠ (ascii "FAT16   ").take (ascii "FAT12   ").length := by decide +kernel

private theorem single {g : Format} (h1 : g ≠ .gpt) (h2 : g ≠ .mbr) (h3 : g ≠ .qcow) (h4 : g ≠ .fat) : ∀ s ∈ signaturesOf g, ∀ u ∈ signaturesOf g, u = s := by
  cases g <;> first | exact absurd rfl h1 | exact absurd rfl h2 | exact absurd rfl h3 | exact absurd rfl h4 | decide +kernel

private theorem unique_of {data : List Byte} {g : Format} {s u : Signature} (hs : s ∈ signaturesOf g) (hu : u ∈ signaturesOf g) (h1 : g ≠ .gpt) (h2 : g ≠ .mbr)
    (hfat : ¬ (HasAt data 82 (ascii "FAT32   ") ∧ (HasAt data 54 (ascii "FAT12   ") ∨ HasAt data 54 (ascii "FAT16   "))))
    {k j : Nat} (ho : OccursAt data s k) (hj : OccursAt data u j) : u = s := by
  have hpu : u.pattern ≠ [] := fun e => by have := (signature_facts hu).2.1; rw [e] at this; simp at this
  have hps : s.pattern ≠ [] := fun e => by have := (signature_facts hs).2.1; rw [e] at this; simp at this
  by_cases hq : g = .qcow
  · subst hq
    obtain ⟨⟨a1, a2⟩, a3⟩ := qcow_cases s hs
    obtain ⟨⟨b1, b2⟩, -⟩ := qcow_cases u hu
    rw [occurs_start b1 hpu, b2] at hj
    rw [occurs_start a1 hps, a2] at ho
    exact a3 u hu (prefixes hj.2 ho.2)
  by_cases hq' : g = .fat
  · subst hq'
    obtain ⟨a1, a2⟩ := fat_cases s hs
    obtain ⟨b1, b2⟩ := fat_cases u hu
    rw [occurs_start b1 hpu] at hj
    rw [occurs_start a1 hps] at ho
    rcases a2 with rfl | rfl | rfl <;> rcases b2 with rfl | rfl | rfl
    · rfl
    · exact absurd (prefixes ho.2 hj.2) fat_prefix
    · exact absurd ⟨hj.2, .inl ho.2⟩ hfat
    · exact absurd (prefixes hj.2 ho.2) fat_prefix
    · rfl
    · exact absurd ⟨hj.2, .inr ho.2⟩ hfat
    · exact absurd ⟨ho.2, .inl hj.2⟩ hfat
    · exact absurd ⟨ho.2, .inr hj.2⟩ hfat
    · rfl
  · exact single h1 h2 hq hq' s hs u hu

/-- C60: a format of which a stream has the bytes is reported, if the stream has those of no other format that is scanned for.
Missing: GUID partition tables and master boot records, for which it does not hold unless the sectors have 512 bytes
(`C60_violated_sectors`), streams with the bytes of several formats (`C60_violated_several`), and small streams. -/
theorem C60_complete_partial (depth : Nat) (formats : List Format) (scanner : Scanner) (hb : Scanner.build depth (formats.flatMap signaturesOf) = .ok scanner)
    (data : List Byte) (hsize : data.length < 2 ^ 64) (hsmall : .udif ∈ formats ∨ .vhd ∈ formats → 520 ≤ data.length) (hgpt : .gpt ∉ formats) (hmbr : .mbr ∉ formats)
    (f : Format) (hf : f ∈ formats) (hhas : HasFormat data f) (honly : ∀ g ∈ formats, HasFormat data g → g = f)
    (hfat : ¬ (HasAt data 82 (ascii "FAT32   ") ∧ (HasAt data 54 (ascii "FAT12   ") ∨ HasAt data 54 (ascii "FAT16   "))))
    (found : Format → Prop) (h : scanFormats scanner data = .ok found) : found f := by
  obtain ⟨results, hr, h⟩ := R.bind_eq_ok.1 h
  cases h
  obtain ⟨s, hs, k, ho⟩ := (hasFormat_iff data f).1 hhas
  have hsall := mem_all hs (fun e => hgpt (e ▸ hf)) (fun e => hmbr (e ▸ hf))
  have hmem : s ∈ formats.flatMap signaturesOf := List.mem_flatMap.2 ⟨f, hf, hs⟩
  have hend : ∀ s ∈ formats.flatMap signaturesOf, s.type = .boundToEnd → s.offset + s.pattern.length ≤ data.length := by
    intro s hs hst
    obtain ⟨g, hg, hs⟩ := mem_signatures hs
    obtain ⟨h1, h2⟩ := (signature_facts hs).2.2 hst
    refine Nat.le_trans h2 (hsmall ?_)
    rcases h1 with rfl | rfl
    · exact .inl hg
    · exact .inr hg
  have hub : ∀ u ∈ formats.flatMap signaturesOf, u.type ≠ .unbound := by
    intro u hu
    obtain ⟨g, -, hu⟩ := mem_signatures hu
    exact (signature_facts hu).1
  have hd : ∀ u ∈ formats.flatMap signaturesOf, u.pattern = s.pattern → u = s := by
    intro u hu e
    obtain ⟨g, hg, hu⟩ := mem_signatures hu
    exact all_patterns s hsall u (mem_all hu (fun e => hgpt (e ▸ hg)) (fun e => hmbr (e ▸ hg))) e
  have hone : ∀ u ∈ formats.flatMap signaturesOf, ∀ j, OccursAt data u j → u = s := by
    intro u hu j hj
    obtain ⟨g, hg, hu⟩ := mem_signatures hu
    have : g = f := honly g hg ((hasFormat_iff data g).2 ⟨u, hu, j, hj⟩)
    subst this
    exact unique_of hs hu (fun e => hgpt (e ▸ hg)) (fun e => hmbr (e ▸ hg)) hfat ho hj
  refine ⟨k, s, ?_, format_of hs⟩
  have hps : s.pattern ≠ [] := fun e => by have := (signature_facts hs).2.1; rw [e] at this; simp at this
  have hty := (signature_facts hs).1
  cases e : s.type with
  | unbound => exact absurd e hty
  | boundToStart =>
    obtain ⟨rfl, -⟩ := (occurs_start e hps).1 ho
    refine C48_stream_partial depth _ scanner hb data hsize s hmem e hps ho (fun u hu _ => hone u hu) (fun u hu _ => hd u hu) ?_ hub hend results hr
    intro u hu hut hou
    have := hone u hu _ hou
    rw [this, e] at hut
    cases hut
  | boundToEnd =>
    refine C48_stream_footer_partial depth _ scanner hb data hsize s hmem e hps k ho (fun u hu _ => hone u hu) (fun u hu _ => hd u hu) ?_ hub hend results hr
    intro u hu hut hou
    have := hone u hu _ hou
    rw [this, e] at hut
    cases hut

private theorem image_facts : ∀ s ∈ [Format.ewf, .qcow, .sparseImage, .udif, .vhd, .vhdx].flatMap signaturesOf, s.type ≠ .unbound ∧ 2 ≤ s.pattern.length ∧ s.offset + s.pattern.length ≤ 520 ∧
    (s.type = .boundToStart → s.offset = 0) ∧ (s.type = .boundToEnd → s.offset = 512) ∧ ∀ u ∈ [Format.ewf, .qcow, .sparseImage, .udif, .vhd, .vhdx].flatMap signaturesOf, u.type = s.type →
      (u.pattern = s.pattern → u = s) ∧ (u.pattern.take s.pattern.length = s.pattern.take u.pattern.length → u = s) := by decide +kernel

/-- C60 for the formats of storage media images, in the order in which the scanner and the tools add them
(vfs/scanner/scanner.rs:86-92, image_tool.rs:1034-1040): the scanner can be built, a scan does not fail, and exactly the formats are
reported of which the stream has the bytes, whatever it has otherwise. -/
theorem C60_images_partial (data : List Byte) (h1 : 520 ≤ data.length) (h2 : data.length < 2 ^ 63) :
    ∃ scanner found, Scanner.build 64 ([Format.ewf, .qcow, .sparseImage, .udif, .vhd, .vhdx].flatMap signaturesOf) = .ok scanner ∧
      scanFormats scanner data = .ok found ∧
      ∀ f, found f ↔ f ∈ [Format.ewf, .qcow, .sparseImage, .udif, .vhd, .vhdx] ∧ HasFormat data f := by
  have hbuilt : built (Scanner.build 64 ([Format.ewf, .qcow, .sparseImage, .udif, .vhd, .vhdx].flatMap signaturesOf)) = true := by decide +kernel
  have hF := image_facts
  have hS := fun scanner hb => C60_sound_partial 64 [Format.ewf, .qcow, .sparseImage, .udif, .vhd, .vhdx] scanner hb data (fun _ => h1)
  generalize [Format.ewf, .qcow, .sparseImage, .udif, .vhd, .vhdx] = formats at *
  obtain ⟨scanner, hb⟩ : ∃ scanner, Scanner.build 64 (formats.flatMap signaturesOf) = .ok scanner := by
    generalize Scanner.build 64 (formats.flatMap signaturesOf) = r at hbuilt
    cases r with
    | ok scanner => exact ⟨scanner, rfl⟩
    | err => cases hbuilt
    | panic => cases hbuilt
  have hend : ∀ s ∈ formats.flatMap signaturesOf, s.offset + s.pattern.length ≤ data.length := fun s hs => Nat.le_trans (hF s hs).2.2.1 h1
  have hub : ∀ s ∈ formats.flatMap signaturesOf, s.type ≠ .unbound := fun s hs => (hF s hs).1
  have hne : ∀ s ∈ formats.flatMap signaturesOf, s.pattern ≠ [] := fun s hs e => by have := (hF s hs).2.1; rw [e] at this; simp at this
  obtain ⟨results, hr⟩ := scanStream_total hb hub (fun s hs => (hF s hs).2.1) h2 hend
  have hscan : scanFormats scanner data = .ok fun f => ∃ k s, results k = some s ∧ formatOf s.identifier = f := by
    unfold scanFormats; rw [hr]; rfl
  refine ⟨scanner, _, hb, hscan, fun f => ⟨hS scanner hb _ hscan f, ?_⟩⟩
  rintro ⟨hf, hhas⟩
  obtain ⟨s, hs, k, ho⟩ := (hasFormat_iff data f).1 hhas
  have hmem : s ∈ formats.flatMap signaturesOf := List.mem_flatMap.2 ⟨f, hf, hs⟩
  refine ⟨k, s, ?_, format_of hs⟩
  obtain ⟨-, -, -, fs, fe, fu⟩ := hF s hmem
  cases e : s.type with
  | unbound => exact absurd e (hub s hmem)
  | boundToStart =>
    have ho' := (occurs_start e (hne s hmem)).1 ho
    obtain ⟨rfl, hat⟩ := ho'
    refine C48_stream_partial 64 _ scanner hb data (by omega) s hmem e (hne s hmem) ho ?_ (fun u hu hut => (fu u hu (hut.trans e.symm)).1) ?_ hub (fun s hs _ => hend s hs) results hr
    · intro u hu hut j hj
      have hj' := (occurs_start hut (hne u hu)).1 hj
      have hz := (hF u hu).2.2.2.1 hut
      rw [hz] at hj'
      rw [fs e] at hat
      exact (fu u hu (hut.trans e.symm)).2 (prefixes hj'.2 hat)
    · intro u hu hut hj
      obtain ⟨hj, -, -⟩ := (occurs_end hut (hne u hu)).1 hj
      rw [fs e, (hF u hu).2.2.2.2.1 hut] at hj
      omega
  | boundToEnd =>
    obtain ⟨hk, -, hat⟩ := (occurs_end e (hne s hmem)).1 ho
    refine C48_stream_footer_partial 64 _ scanner hb data (by omega) s hmem e (hne s hmem) k ho ?_ (fun u hu hut => (fu u hu (hut.trans e.symm)).1) ?_ hub (fun s hs _ => hend s hs) results hr
    · intro u hu hut j hj
      obtain ⟨-, -, hj⟩ := (occurs_end hut (hne u hu)).1 hj
      rw [(hF u hu).2.2.2.2.1 hut] at hj
      rw [fe e] at hat
      exact (fu u hu (hut.trans e.symm)).2 (prefixes hj hat)
    · intro u hu hut hj
      obtain ⟨hj, -⟩ := (occurs_start hut (hne u hu)).1 hj
      rw [(hF u hu).2.2.2.1 hut, hk, fe e] at hj
      omega

/-! ## Cases that meet the hypotheses, and what does not hold -/

private instance (data : List Byte) (o : Nat) (bytes : List Byte) : Decidable (HasAt data o bytes) := by unfold HasAt; infer_instance

/-- A QCOW 2 image with the footer of a VHD image: both are reported. -/
private def both : List Byte := ascii "QFI" ++ ([0xfb#8, 0#8, 0#8, 0#8, 2#8] ++ (List.replicate 92 0#8 ++ (ascii "conectix" ++ List.replicate 504 0#8)))

private theorem both_size : both.length < 2 ^ 63 := by
  have : both.length = 612 := by decide +kernel
  omega

example : ∃ scanner found, Scanner.build 64 ([Format.ewf, .qcow, .sparseImage, .udif, .vhd, .vhdx].flatMap signaturesOf) = .ok scanner ∧
    scanFormats scanner both = .ok found ∧ found .qcow ∧ found .vhd ∧ ¬ found .udif := by
  obtain ⟨scanner, found, h1, h2, h3⟩ := C60_images_partial both (by decide +kernel) both_size
  refine ⟨scanner, found, h1, h2, (h3 _).2 ⟨by decide, 2#8, by decide, by decide +kernel⟩, (h3 _).2 ⟨by decide, by decide +kernel, by decide +kernel⟩, fun h => ?_⟩
  have := ((h3 _).1 h).2.2
  exact absurd this (by decide +kernel)

/-- A file system with the bytes of NTFS. -/
private def ntfsVolume : List Byte := [0xeb#8, 0x52#8, 0x90#8] ++ (ascii "NTFS    " ++ List.replicate 1100 0#8)

/-- It meets the hypotheses of `C60_complete_partial` for the scan for file systems, vfs/scanner/scanner.rs:117-119. -/
example : HasFormat ntfsVolume .ntfs ∧ ¬ HasFormat ntfsVolume .ext ∧ ¬ HasFormat ntfsVolume .fat ∧
    ∃ scanner, Scanner.build 64 ([Format.ext, .fat, .ntfs].flatMap signaturesOf) = .ok scanner := by
  refine ⟨?_, ?_, ?_, ?_⟩
  · show HasAt _ _ _; decide +kernel
  · show ¬ HasAt _ _ _; decide +kernel
  · show ¬ (HasAt _ _ _ ∨ HasAt _ _ _ ∨ HasAt _ _ _); decide +kernel
  · exact ⟨_, (reported_eq (signatures := [Format.ext, .fat, .ntfs].flatMap signaturesOf) (data := ntfsVolume) (k := 3)
      (o := some ⟨"ntfs1", .boundToStart, 3, ascii "NTFS    "⟩) (by decide +kernel)).choose_spec.choose_spec.1⟩

private theorem reported_five {signatures : List Signature} {data : List Byte} {a b c d e : Option Signature} (k1 k2 k3 k4 k5 : Nat)
    (h : (do let scanner ← Scanner.build 64 signatures; let results ← scanStream scanner data; return (results k1, results k2, results k3, results k4, results k5)) =
      R.ok (a, b, c, d, e)) :
    ∃ scanner results, Scanner.build 64 signatures = .ok scanner ∧ scanStream scanner data = .ok results ∧ results k1 = a ∧ results k2 = b ∧ results k3 = c ∧
      results k4 = d ∧ results k5 = e := by
  obtain ⟨scanner, hs, h⟩ := R.bind_eq_ok.1 h
  obtain ⟨results, hr, h⟩ := R.bind_eq_ok.1 h
  simp only [R.pure_eq, R.ok.injEq, Prod.mk.injEq] at h
  exact ⟨scanner, results, hs, hr, h⟩

private theorem scanFormats_eq {scanner : Scanner} {data : List Byte} {results : Results} (h : scanStream scanner data = .ok results) :
    scanFormats scanner data = .ok fun f => ∃ k s, results k = some s ∧ formatOf s.identifier = f := by
  unfold scanFormats; rw [h]; rfl

private theorem not_reported {f : Format} {formats : List Format} {data : List Byte} {scanner : Scanner} {results : Results}
    (hb : Scanner.build 64 (formats.flatMap signaturesOf) = .ok scanner) (hr : scanStream scanner data = .ok results)
    (ht : ∀ s ∈ formats.flatMap signaturesOf, s.type = .boundToStart) (hn : ∀ s ∈ formats.flatMap signaturesOf, ∀ u, results s.offset = some u → formatOf u.identifier ≠ f) :
    ¬ ∃ k s, results k = some s ∧ formatOf s.identifier = f := by
  rintro ⟨k, s, hk, hf⟩
  have hend : ∀ s ∈ formats.flatMap signaturesOf, s.type = .boundToEnd → s.offset + s.pattern.length ≤ data.length := fun s hs h => by
    rw [ht s hs] at h; cases h
  have hs := reported_mem hb hend hr hk
  obtain ⟨-, ho⟩ := C47_stream_partial 64 _ scanner hb data hend results hr k s hk (by rw [ht s hs]; simp)
  have : k = s.offset := by have := ho.2.2; rw [ht s hs] at this; exact this
  subst this
  exact hn s hs s hk hf

/-- A disk with sectors of 1024 bytes and a GUID partition table. -/
private def disk : List Byte := List.replicate 1024 0#8 ++ (ascii "EFI PART" ++ List.replicate 92 0#8)

/-- C60 does not hold for disks of which the sectors do not have 512 bytes: the scan for partition tables of
vfs/scanner/scanner.rs:106-107 does not report the GUID partition table of the disk. -/
theorem C60_violated_sectors : ∃ (data : List Byte) (scanner : Scanner) (found : Format → Prop),
    Scanner.build 64 ([Format.apm, .gpt].flatMap signaturesOf) = .ok scanner ∧ scanFormats scanner data = .ok found ∧ HasFormat data .gpt ∧ ¬ found .gpt := by
  obtain ⟨scanner, results, h1, h2, a, b, c, d, e⟩ := reported_five (signatures := [Format.apm, .gpt].flatMap signaturesOf) (data := disk) (a := none) (b := none)
    (c := none) (d := none) (e := none) 560 512 1024 2048 4096 (by decide +kernel)
  refine ⟨disk, scanner, _, h1, scanFormats_eq h2, ⟨1024, by simp, by decide +kernel⟩, not_reported h1 h2 (by decide) ?_⟩
  have ho : ∀ s ∈ [Format.apm, .gpt].flatMap signaturesOf, s.offset = 560 ∨ s.offset = 512 ∨ s.offset = 1024 ∨ s.offset = 2048 ∨ s.offset = 4096 := by decide
  intro s hs u hu
  rcases ho s hs with h | h | h | h | h <;> rw [h] at hu
  · rw [a] at hu; cases hu
  · rw [b] at hu; cases hu
  · rw [c] at hu; cases hu
  · rw [d] at hu; cases hu
  · rw [e] at hu; cases hu

/-- A FAT file system over the start of an ext file system. -/
private def volume2 : List Byte := List.replicate 54 0#8 ++ (ascii "FAT16   " ++ (List.replicate 1018 0#8 ++ ([0x53#8, 0xef#8] ++ List.replicate 100 0#8)))

/-- C60 does not hold for streams with the bytes of several formats at other places than the same one: the scan for file systems of
vfs/scanner/scanner.rs:117-119 reports only one of two. -/
theorem C60_violated_several : ∃ (data : List Byte) (scanner : Scanner) (found : Format → Prop),
    Scanner.build 64 ([Format.ext, .fat, .ntfs].flatMap signaturesOf) = .ok scanner ∧ scanFormats scanner data = .ok found ∧ HasFormat data .fat ∧
      HasFormat data .ext ∧ ¬ (found .ext ∧ found .fat) := by
  obtain ⟨scanner, results, h1, h2, a, b, c, d, -⟩ := reported_five (signatures := [Format.ext, .fat, .ntfs].flatMap signaturesOf) (data := volume2)
    (a := none) (b := some ⟨"fat2", .boundToStart, 54, ascii "FAT16   "⟩) (c := none) (d := none) (e := none) 1080 54 82 3 0 (by decide +kernel)
  refine ⟨volume2, scanner, _, h1, scanFormats_eq h2, .inr (.inl (by decide +kernel)), show HasAt _ _ _ by decide +kernel, fun h => ?_⟩
  refine not_reported h1 h2 (by decide) ?_ h.1
  have ho : ∀ s ∈ [Format.ext, .fat, .ntfs].flatMap signaturesOf, s.offset = 1080 ∨ s.offset = 54 ∨ s.offset = 82 ∨ s.offset = 3 := by decide
  intro s hs u hu
  rcases ho s hs with h | h | h | h <;> rw [h] at hu
  · rw [a] at hu; cases hu
  · rw [b] at hu; cases hu; decide
  · rw [c] at hu; cases hu
  · rw [d] at hu; cases hu

/-- C60 does not hold for streams that are smaller than the footer range, scanned for a format with a footer: a stream of 500 bytes
is reported as a FAT file system although it has the bytes at another place. -/
theorem C60_violated_small : ∃ (data : List Byte) (scanner : Scanner) (found : Format → Prop),
    Scanner.build 64 ([Format.fat, .udif].flatMap signaturesOf) = .ok scanner ∧ scanFormats scanner data = .ok found ∧ found .fat ∧ ¬ HasFormat data .fat := by
  obtain ⟨scanner, results, h1, h2, h3⟩ := reported_eq (signatures := [Format.fat, .udif].flatMap signaturesOf)
    (data := List.replicate 66 0 ++ ([0x46, 0x41, 0x54, 0x33, 0x32, 0x20, 0x20, 0x20] ++ List.replicate 426 0)) (k := 82)
    (o := some ⟨"fat3", .boundToStart, 82, [0x46, 0x41, 0x54, 0x33, 0x32, 0x20, 0x20, 0x20]⟩) (by decide +kernel)
  refine ⟨_, scanner, _, h1, scanFormats_eq h2, ⟨82, _, h3, by decide⟩, ?_⟩
  show ¬ (HasAt _ _ _ ∨ HasAt _ _ _ ∨ HasAt _ _ _)
  decide +kernel

end Keramics.Props
