import Verif.Lemmas.NtfsMft

/-!
# Streams of attributes, volumes and files
-/

namespace Keramics.NtfsFs
open Keramics.Spec Keramics.Spec.Ntfs Keramics.Spec.NtfsFs
open Keramics.Ntfs (DataRun Range runLen runRange kept)

/-! ## Streams -/

def pieceGroup (p : Piece) : Nat × Nat × List Run := (p.first, p.last, p.runs)

theorem opens_eq {A : Attr} {flags : Nat} {p : Piece} {ps : List Piece} (h : Kept A flags p ps) (hf : flags % 256 = 0) :
    A.opens = ⟨false, false, p.allocated, p.size, p.valid, ((p :: ps).map pieceGroup).map fun g => ⟨g.1, g.2.1, g.2.2.map fun
          | .data count lcn => ⟨lcn, count, .inFile⟩
          | .sparse count => ⟨0, count, .sparse⟩⟩⟩ := by
  have h1 : A.isResident = false := by simp [Attr.isResident, h.nonResident]
  have h2 : A.isCompressed = false := by
    have : flags &&& 0xff = flags % 256 := Nat.and_two_pow_sub_one_eq_mod flags 8
    simp [Attr.isCompressed, h.flags, this, hf]
  unfold Attr.opens
  rw [h1, h2, h.allocated, h.size, h.valid, h.groups, List.map_map, List.map_map]
  rfl

theorem flatMap_pieceGroup (ps : List Piece) : (ps.map pieceGroup).flatMap (fun g => g.2.2) = ps.flatMap Piece.runs := by
  rw [List.flatMap_map]; rfl

/-- The stream of an attribute in clusters. -/
theorem clusters_stream {U : List Byte} {A : Attr} {flags : Nat} {p : Piece} {ps : List Piece} (hb : Spec.NtfsFs.Boot U) (hU : U.length < 2 ^ 63)
    (h : Kept A flags p ps) (hf : flags % 256 = 0) (hg : Follow 0 ((p :: ps).map pieceGroup)) (hv : InVolume U p ps)
    (ops : List StreamOp) (hs : p.size + seekBudget ops < 2 ^ 63) :
    ∃ s tr, Ntfs.openStream (clusterSize U) A.opens = .ok s ∧ Stream.run (Ntfs.stream U (clusterSize U) s) ⟨(), 0⟩ ops = .ok tr ∧ tr.map Prod.fst = ops ∧
      Trace true (clusterBytes U p ps) p.size 0 tr := by
  rw [opens_eq h hf]
  have hle : p.allocated ≤ (p.allocated + clusterSize U - 1) / clusterSize U * clusterSize U := by
    have := BlockTree.le_divCeil_mul (a := p.allocated) (cluster_pos hb)
    unfold BlockTree.divCeil at this
    rw [Nat.mul_comm]; exact this
  exact Props.C35_contents U (clusterSize U) p.allocated p.valid p.size ((p :: ps).map pieceGroup) ((p :: ps).flatMap Piece.runs)
    (flatMap_pieceGroup _).symm hg (cluster_pos hb) (fun r hr => by
      obtain ⟨q, hq, hr⟩ := List.mem_flatMap.1 hr; exact hv.positive q hq r hr)
    (fun count lcn hr => by obtain ⟨q, hq, hr⟩ := List.mem_flatMap.1 hr; exact hv.inside q hq count lcn hr) (by omega) hv.some hv.fits
    (by rw [hv.allocated]; exact hle) (by rw [hv.allocated]; exact hv.size) hv.valid ops hs

theorem openStream_size {bs : Nat} {a : Ntfs.Attribute} {s : Ntfs.Opened} (hc : a.compressed = false) (h : Ntfs.openStream bs a = .ok s) : s.size = a.dataSize := by
  unfold Ntfs.openStream at h
  obtain ⟨_, -, h⟩ := R.bind_eq_ok.1 h
  obtain ⟨_, -, h⟩ := R.bind_eq_ok.1 h
  obtain ⟨_, -, h⟩ := R.bind_eq_ok.1 h
  obtain ⟨t, -, h⟩ := R.bind_eq_ok.1 h
  cases h
  unfold Ntfs.opened
  rw [if_neg (by rw [hc]; decide)]

/-- The first read from a stream. -/
theorem first_read {C : List Byte} {S : Nat} {r : Reader Unit} {n : Nat} (hr : r.size = S) (hC : C.length = S)
    (h : ∃ tr, Stream.run r ⟨(), 0⟩ [.read n] = .ok tr ∧ tr.map Prod.fst = [.read n] ∧ Trace true C S 0 tr) :
    (Stream.mk () 0).read r n = .ok (C.take n, ⟨(), (C.take n).length⟩) := by
  obtain ⟨tr, h1, -, h3⟩ := h
  unfold Stream.run Stream.step at h1
  obtain ⟨⟨out, s'⟩, h4, h1⟩ := R.bind_eq_ok.1 h1
  obtain ⟨⟨d, s''⟩, h5, h6⟩ := R.bind_eq_ok.1 h4
  cases h6
  obtain ⟨rest, h7, h1⟩ := R.bind_eq_ok.1 h1
  cases h1
  cases h3 with
  | read h8 h9 =>
    unfold readOk at h8
    have hd : d = C.take n := by
      by_cases h0 : 0 < S
      · rw [if_pos (by omega)] at h8
        exact h8.2.2 rfl
      · rw [if_neg (by omega)] at h8
        have : C = [] := List.length_eq_zero_iff.1 (by omega)
        rw [h8, this, List.take_nil]
    subst hd
    rw [h5]
    congr 2
    unfold Stream.read at h5
    split at h5
    · rw [R.pure_eq] at h5
      injection h5 with h5
      injection h5 with h10 h11
      rw [← h10, ← h11]; rfl
    · obtain ⟨⟨o, i⟩, h10, h5⟩ := R.bind_eq_ok.1 h5
      obtain ⟨c, h11, h5⟩ := R.bind_eq_ok.1 h5
      have hc : c = 0 + o.length := by
        simp only at h11
        unfold R.addU at h11
        split at h11
        · cases h11; rfl
        · cases h11
      rw [R.pure_eq] at h5
      injection h5 with h5
      injection h5 with h12 h13
      rw [← h12, ← h13, hc, Nat.zero_add]

theorem clusterBytes_length {U : List Byte} {p : Piece} {ps : List Piece} (hv : InVolume U p ps) : (clusterBytes U p ps).length = p.size := by
  have hbl : (((p :: ps).flatMap Piece.runs).flatMap (Run.bytes U (clusterSize U))).length = p.allocated := by
    rw [Layout.flatMap_length (runLen (clusterSize U)) _ _ fun r hr => Ntfs.Run.bytes_length fun count lcn e => by
      obtain ⟨q, hq, hr⟩ := List.mem_flatMap.1 hr; exact hv.inside q hq count lcn (e ▸ hr)]
    exact hv.allocated
  have h1 := hv.valid
  have h2 := hv.size
  unfold clusterBytes contents
  rw [List.length_append, List.length_take, List.length_replicate, hbl]; omega

/-- Opening the stream of an attribute in clusters and reading it. -/
theorem clusters_read {U : List Byte} {A : Attr} {flags : Nat} {p : Piece} {ps : List Piece} (hb : Spec.NtfsFs.Boot U) (hU : U.length < 2 ^ 63)
    (h : Kept A flags p ps) (hf : flags % 256 = 0) (hg : Follow 0 ((p :: ps).map pieceGroup)) (hv : InVolume U p ps) (hs : p.size < 2 ^ 63) :
    ∃ s, Ntfs.openStream (clusterSize U) A.opens = .ok s ∧ s.size = p.size ∧
      ∀ n, (Stream.mk () 0).read (Ntfs.stream U (clusterSize U) s) n =
        .ok ((clusterBytes U p ps).take n, ⟨(), ((clusterBytes U p ps).take n).length⟩) := by
  obtain ⟨s, -, h1, -⟩ := clusters_stream hb hU h hf hg hv [] (by simpa [seekBudget] using hs)
  have hsize : s.size = p.size := by
    rw [openStream_size (by rw [opens_eq h hf]) h1, opens_eq h hf]
  refine ⟨s, h1, hsize, fun n => ?_⟩
  refine first_read (S := p.size) ?_ (clusterBytes_length hv) ?_
  · exact hsize
  · obtain ⟨s', tr, g1, g2, g3, g4⟩ := clusters_stream hb hU h hf hg hv [.read n] (by simpa [seekBudget] using hs)
    rw [h1] at g1; cases g1
    exact ⟨tr, g2, g3, g4⟩

/-! ## Attribute lists -/

theorem residentAttr {k flags length : Nat} {n : Option (List Nat)} {data : List Byte} (hf : flags % 256 = 0) :
    (attrOf length 0 ⟨k, flags, n, .resident data⟩).isResident = true ∧ (attrOf length 0 ⟨k, flags, n, .resident data⟩).isCompressed = false ∧
      (attrOf length 0 ⟨k, flags, n, .resident data⟩).resident = data ∧ (attrOf length 0 ⟨k, flags, n, .resident data⟩).dataSize = data.length := by
  have h255 : flags &&& 0xff = flags % 256 := Nat.and_two_pow_sub_one_eq_mod flags 8
  exact ⟨by simp [Attr.isResident, attrOf], by simp [Attr.isCompressed, attrOf, h255, hf], rfl, rfl⟩

theorem listLoop_ok {data : List Byte} {refs : List Nat} (h : ListAt data refs) (pre : List Byte) (fuel : Nat) (hf : data.length < fuel) :
    listLoop (pre ++ data) fuel pre.length = .ok refs := by
  induction h generalizing pre fuel with
  | nil =>
    obtain ⟨fuel, rfl⟩ : ∃ k, fuel = k + 1 := ⟨fuel - 1, by simp at hf; omega⟩
    rw [listLoop, if_neg (by simp)]
  | @cons entry rest refs h1 h2 h3 ih =>
    rw [List.length_append] at hf
    obtain ⟨fuel, rfl⟩ : ∃ k, fuel = k + 1 := ⟨fuel - 1, by omega⟩
    have hd : (pre ++ (entry ++ rest)).drop pre.length = entry ++ rest := List.drop_left
    have hfield : ∀ o n, o + n ≤ entry.length → field (entry ++ rest) o n = field entry o n := by
      intro o n hn
      unfold field bytesAt
      rw [List.drop_append_of_le_length (by omega), List.take_append_of_le_length (by rw [List.length_drop]; omega)]
    rw [listLoop, if_pos (by simp only [List.length_append]; omega), slice_rest (by simp), R.ok_bind, hd,
      R.require_true (by rw [List.length_append]; omega), R.ok_bind, u16_ok (by rw [List.length_append]; omega), R.ok_bind,
      u64le_field (by rw [List.length_append]; omega), R.ok_bind, hfield 4 2 (by omega), hfield 16 8 (by omega), h2]
    have := ih (pre ++ entry) fuel (by omega)
    rw [List.append_assoc, List.length_append] at this
    rw [this]; rfl

theorem listData_ok {data : List Byte} {refs : List Nat} (h : ListAt data refs) : listData data = .ok refs :=
  listLoop_ok h [] (data.length + 1) (by omega)

theorem insertNumber_spec (n : Nat) (l : List Nat) (h : l.Pairwise (· < ·)) :
    (insertNumber n l).Pairwise (· < ·) ∧ ∀ m, m ∈ insertNumber n l ↔ m = n ∨ m ∈ l := by
  induction l with
  | nil => exact ⟨List.pairwise_singleton _ _, fun m => by simp [insertNumber]⟩
  | cons a l ih =>
    obtain ⟨h1, h2⟩ := List.pairwise_cons.1 h
    obtain ⟨i1, i2⟩ := ih h2
    rw [insertNumber]
    split
    · rename_i hlt
      refine ⟨List.pairwise_cons.2 ⟨fun x hx => ?_, h⟩, fun m => by simp⟩
      rcases List.mem_cons.1 hx with rfl | hx
      · exact hlt
      · have := h1 x hx; omega
    · split
      · rename_i heq
        subst heq
        exact ⟨h, fun m => by simp⟩
      · refine ⟨List.pairwise_cons.2 ⟨fun x hx => ?_, i1⟩, fun m => ?_⟩
        · rcases (i2 x).1 hx with rfl | hx
          · omega
          · exact h1 x hx
        · rw [List.mem_cons, i2, List.mem_cons]
          constructor
          · rintro (h | h | h)
            · exact .inr (.inl h)
            · exact .inl h
            · exact .inr (.inr h)
          · rintro (h | h | h)
            · exact .inr (.inl h)
            · exact .inl h
            · exact .inr (.inr h)

theorem otherEntries_spec (n : Nat) (refs : List Nat) :
    (otherEntries n refs).Pairwise (· < ·) ∧ ∀ m, m ∈ otherEntries n refs ↔ m ≠ n ∧ m ∈ refs.map (· % 2 ^ 48) := by
  have : ∀ (refs acc : List Nat), acc.Pairwise (· < ·) → (∀ m ∈ acc, m ≠ n) →
      let r := refs.foldl (fun numbers r => if r % 2 ^ 48 ≠ n then insertNumber (r % 2 ^ 48) numbers else numbers) acc
      r.Pairwise (· < ·) ∧ ∀ m, m ∈ r ↔ m ∈ acc ∨ (m ≠ n ∧ m ∈ refs.map (· % 2 ^ 48)) := by
    intro refs
    induction refs with
    | nil => intro acc h _; exact ⟨h, fun m => by simp⟩
    | cons x refs ih =>
      intro acc h hn
      simp only [List.foldl_cons]
      by_cases hx : x % 2 ^ 48 ≠ n
      · rw [if_pos hx]
        obtain ⟨i1, i2⟩ := insertNumber_spec (x % 2 ^ 48) acc h
        obtain ⟨j1, j2⟩ := ih _ i1 (fun m hm => by
          rcases (i2 m).1 hm with rfl | hm
          · exact hx
          · exact hn m hm)
        refine ⟨j1, fun m => ?_⟩
        rw [j2 m, i2 m, List.map_cons, List.mem_cons]
        constructor
        · rintro ((rfl | g) | ⟨g1, g2⟩)
          · exact .inr ⟨hx, .inl rfl⟩
          · exact .inl g
          · exact .inr ⟨g1, .inr g2⟩
        · rintro (g | ⟨g1, g2 | g2⟩)
          · exact .inl (.inr g)
          · exact .inl (.inl g2)
          · exact .inr ⟨g1, g2⟩
      · rw [if_neg hx]
        obtain ⟨j1, j2⟩ := ih acc h hn
        refine ⟨j1, fun m => ?_⟩
        rw [j2 m, List.map_cons, List.mem_cons]
        constructor
        · rintro (g | ⟨g1, g2⟩)
          · exact .inl g
          · exact .inr ⟨g1, .inr g2⟩
        · rintro (g | ⟨g1, g2 | g2⟩)
          · exact .inl g
          · exact absurd (g2 ▸ g1) hx
          · exact .inr ⟨g1, g2⟩
  obtain ⟨h1, h2⟩ := this refs [] List.Pairwise.nil (by simp)
  exact ⟨h1, fun m => by rw [otherEntries, h2 m]; simp⟩

theorem ascending_unique {l l' : List Nat} (h : l.Pairwise (· < ·)) (h' : l'.Pairwise (· < ·)) (hm : ∀ x, x ∈ l ↔ x ∈ l') : l = l' := by
  induction l generalizing l' with
  | nil =>
    cases l' with
    | nil => rfl
    | cons a l' => exact absurd ((hm a).2 List.mem_cons_self) (by simp)
  | cons a l ih =>
    cases l' with
    | nil => exact absurd ((hm a).1 List.mem_cons_self) (by simp)
    | cons b l' =>
      obtain ⟨h1, h2⟩ := List.pairwise_cons.1 h
      obtain ⟨h1', h2'⟩ := List.pairwise_cons.1 h'
      have hab : a = b := by
        rcases List.mem_cons.1 ((hm a).1 List.mem_cons_self) with e | e
        · exact e
        · rcases List.mem_cons.1 ((hm b).2 List.mem_cons_self) with e' | e'
          · exact e'.symm
          · have := h1 b e'; have := h1' a e; omega
      subst hab
      rw [ih h2 h2' fun x => ?_]
      constructor
      · intro hx
        rcases List.mem_cons.1 ((hm x).1 (List.mem_cons_of_mem _ hx)) with e | e
        · have := h1 x hx; omega
        · exact e
      · intro hx
        rcases List.mem_cons.1 ((hm x).2 (List.mem_cons_of_mem _ hx)) with e | e
        · have := h1' x hx; omega
        · exact e

theorem named_one {as : List Attribute} {k : Nat} {n : Option (List Nat)}
    (hp : as.Pairwise fun a b => a.kind = b.kind → a.kind ≠ 0x10 ∧ a.kind ≠ 0x20 ∧ a.kind ≠ 0xc0) (hk3 : k = 0x10 ∨ k = 0x20 ∨ k = 0xc0)
    {a : Attribute} (ha : a ∈ as) (hn : a.name = n) (hk : a.kind = k) : named as n k = [a] := by
  subst hn
  have hother : ∀ bs : List Attribute, (∀ b ∈ bs, b.kind ≠ k) → named bs a.name k = [] := by
    intro bs hb
    refine List.filter_eq_nil_iff.2 fun b hb' => ?_
    simp [hb b hb']
  have hne3 : ∀ b c : Attribute, (b.kind = c.kind → b.kind ≠ 0x10 ∧ b.kind ≠ 0x20 ∧ b.kind ≠ 0xc0) → b.kind = k → c.kind ≠ k := by
    intro b c h hb hc
    obtain ⟨q1, q2, q3⟩ := h (hb.trans hc.symm)
    rw [hb] at q1 q2 q3
    rcases hk3 with q | q | q <;> contradiction
  induction as with
  | nil => cases ha
  | cons b as ih =>
    obtain ⟨h1, h2⟩ := List.pairwise_cons.1 hp
    have hcons : named (b :: as) a.name k = (if b.name = a.name ∧ b.kind = k then [b] else []) ++ named as a.name k := by
      unfold named
      rw [List.filter_cons]
      by_cases hc : b.name = a.name ∧ b.kind = k
      · rw [if_pos (decide_eq_true hc), if_pos hc]; rfl
      · rw [if_neg (by simpa using hc), if_neg hc]; rfl
    rw [hcons]
    rcases List.mem_cons.1 ha with rfl | ha
    · rw [if_pos ⟨rfl, hk⟩, hother as fun c hc => hne3 _ _ (h1 c hc) hk]; rfl
    · have hne : b.kind ≠ k := fun e => hne3 _ _ (h1 a ha) e hk
      rw [if_neg (fun g => hne g.2), ih h2 ha]; rfl

theorem named_single {as : List Attribute} (hs : Sound as) {a : Attribute} (ha : a ∈ as) (hk : a.kind = 0x20) : named as a.name 0x20 = [a] :=
  named_one hs.single (by decide) ha rfl hk

theorem attrIs_clusters {A : Attr} {p : Piece} {k flags : Nat} {n : Option (List Nat)} (h : AttrIs [Piece.attribute k flags n p] A) : Kept A flags p [] := by
  cases h with
  | resident a data length e1 e2 e3 =>
    obtain rfl := List.singleton_inj.1 e1
    cases e2
  | clusters c1 c2 c3 c4 c5 c6 c7 =>
    obtain ⟨a, ha, haf⟩ := c4
    obtain rfl := List.mem_singleton.1 ha
    obtain ⟨b, hb, ⟨f, l, x, s, v, u, r, hv, s1, s2, s3, s4⟩, -⟩ := c7
    obtain rfl := List.mem_singleton.1 hb
    unfold Piece.attribute at hv
    simp only [Value.clusters.injEq] at hv
    obtain ⟨-, -, v3, v4, v5, v6, -⟩ := hv
    exact ⟨c2, c3, haf, List.perm_singleton.1 c5, by rw [s1, v3], by rw [s2, v4], by rw [s3, v5], by rw [s4, v6]⟩

/-- What an attribute list says. -/
theorem listOf_ok {U : List Byte} {as : List Attribute} {attrs : Attrs} {data : List Byte} {refs : List Nat} (hb : Spec.NtfsFs.Boot U) (hU : U.length < 2 ^ 63)
    (hi : Inv as attrs) (hs : Sound as) (h : ListBytes U as data)
    (hsize : ∀ a ∈ as, a.kind = 0x20 → ∀ f l x s v u r, a.value = .clusters f l x s v u r → s ≤ clusterSize U) (hr : ListAt data refs) :
    listOf U (clusterSize U) attrs = .ok refs := by
  obtain ⟨a, ha, hk, hf, hv⟩ := h
  have hn := named_single hs ha hk
  obtain ⟨i, A, e1, e2, e3⟩ := hi.some a.name 0x20 (by decide) (by rw [hn]; simp)
  rw [hn] at e3
  have h255 : ∀ f : Nat, f &&& 0xff = f % 256 := fun f => Nat.and_two_pow_sub_one_eq_mod f 8
  unfold listOf
  rw [hi.list a ha hk, e1]
  simp only
  rw [e2]
  simp only [Fat.orErr]
  rw [R.ok_bind]
  unfold readList
  rcases hv with hv | ⟨p, hp, hp0, hfo, hin, rfl⟩
  · obtain ⟨kind, flags, name, value⟩ := a
    simp only at hv hf
    subst hv
    cases e3 with
    | resident a data' length g1 g2 g3 =>
      obtain rfl := List.singleton_inj.1 g1
      obtain ⟨k1, k2, k3, -⟩ := residentAttr (k := kind) (length := length) (n := name) (data := data) hf
      rw [g3, R.require_true k2, R.ok_bind, k1, if_pos rfl, k3]
      exact listData_ok hr
    | clusters g1 =>
      obtain ⟨_, _, _, _, _, _, _, e⟩ := g1 _ (List.mem_singleton_self _)
      cases e
  · rw [hp] at e3
    have K := attrIs_clusters e3
    have k1 : A.isResident = false := by simp [Attr.isResident, K.nonResident]
    have k2 : A.isCompressed = false := by simp [Attr.isCompressed, K.flags, h255, hf]
    have hle : p.size ≤ clusterSize U := hsize a ha hk _ _ _ _ _ _ _ (by rw [hp]; rfl)
    have hcl := cluster_le hb
    obtain ⟨s, s1, s2, s3⟩ := clusters_read hb hU K hf hfo hin (by omega)
    have hlen := clusterBytes_length hin
    rw [R.require_true k2, R.ok_bind, if_neg (by rw [k1]; decide), s1, R.ok_bind, listBlocks, s3, R.ok_bind]
    simp only
    rw [List.take_of_length_le (by omega)]
    by_cases h0 : (clusterBytes U p []).length = 0
    · rw [if_pos h0]
      rw [List.length_eq_zero_iff.1 h0] at hr
      generalize hg : ([] : List Byte) = d at hr
      cases hr with
      | nil => rfl
      | cons g1 g2 g3 =>
        have := congrArg List.length hg
        simp only [List.length_append, List.length_nil] at this
        omega
    · rw [if_neg h0, listData_ok hr, R.ok_bind]
      obtain ⟨k, hk'⟩ : ∃ k, s.size = k + 1 := ⟨s.size - 1, by omega⟩
      have hread : (Stream.mk () (clusterBytes U p []).length).read (Ntfs.stream U (clusterSize U) s) (clusterSize U) =
          .ok ([], Stream.mk () (clusterBytes U p []).length) := by
        unfold Stream.read
        rw [if_pos (by show (clusterBytes U p []).length ≥ s.size; omega)]
        rfl
      rw [hk', listBlocks, hread, R.ok_bind]
      simp only
      rw [if_pos List.length_nil]
      show R.ok (refs ++ []) = _
      rw [List.append_nil]

/-! ## The MFT -/

theorem recordLength {U record : List Byte} {mft : List Run} {n : Nat} (hb : Spec.NtfsFs.Boot U) (h : EntryAt U mft n record) : record.length < 2 ^ 32 := by
  obtain ⟨h1, h2, -⟩ := h
  rw [Nat.add_mul, Nat.one_mul] at h1
  have := hb.entry.2
  rw [← (stored_length h2).1, bytesAt_length h1]; omega

theorem extended_prefix {U : List Byte} {runs mft : List Run} {ns : List Nat} (h : Extended U runs ns mft) : ∃ rest, mft = runs ++ rest := by
  induction h with
  | nil => exact ⟨[], by simp⟩
  | other _ _ _ _ ih => exact ih
  | @data runs n ns as mft p _ _ _ _ _ ih =>
    obtain ⟨rest, e⟩ := ih
    exact ⟨p.runs ++ rest, by rw [e, List.append_assoc]⟩

theorem get_one {as : List Attribute} {attrs : Attrs} (h : Inv as attrs) {p : Piece} {flags : Nat} (hn : named as none 0x80 = [p.attribute 0x80 flags none]) :
    ∃ A, attrs.get none 0x80 = some A ∧ Kept A flags p [] := by
  obtain ⟨i, A, e1, e2, e3⟩ := h.some none 0x80 (by decide) (by rw [hn]; simp)
  rw [hn] at e3
  refine ⟨A, ?_, attrIs_clusters e3⟩
  unfold Attrs.get
  rw [e1]
  exact e2

theorem addEntries_ok {U : List Byte} {runs mft : List Run} {ns : List Nat} {m : Mft} (hb : Spec.NtfsFs.Boot U) (hU : U.length < 2 ^ 63)
    (hd : DataRuns U (clusterSize U) mft) (hw : ∀ r ∈ mft, entrySize U ∣ r.count * clusterSize U) (h : Extended U runs ns mft) (hm : Part U runs m)
    (ht : Layout.total (runLen (clusterSize U)) mft ≤ m.tree.dataSize) :
    ∃ m', addEntries U ns m = .ok m' ∧ Part U mft m' := by
  have hent := hb.entry
  induction h generalizing m with
  | nil => exact ⟨m, rfl, hm⟩
  | @other runs n ns as mft h1 h2 h3 h4 ih =>
    obtain ⟨record, r1, r2⟩ := h1
    obtain ⟨rest, hpre⟩ := extended_prefix h4
    obtain ⟨attrs, a1, a2⟩ := readAttributes_ok (as := []) (recordLength hb r1) r2 inv_empty h2
    rw [List.nil_append] at a2
    obtain ⟨m', b1, b2⟩ := ih hd hw hm ht
    refine ⟨m', ?_, b2⟩
    rw [addEntries, getEntry_ok hm.ok (fun r hr => hd r (by rw [hpre]; exact List.mem_append_left _ hr)) (fun r hr => hw r (by rw [hpre]; exact List.mem_append_left _ hr))
      hent hU hm.bound r1, R.ok_bind, a1, R.ok_bind]
    unfold addData
    have : attrs.get none 0x80 = none := by
      unfold Attrs.get
      rw [a2.none none 0x80 (by decide) h3]
      rfl
    rw [this]
    exact b1
  | @data runs n ns as mft p h1 h2 h3 h4 h5 ih =>
    obtain ⟨record, r1, r2⟩ := h1
    obtain ⟨rest, hpre⟩ := extended_prefix h5
    obtain ⟨attrs, a1, a2⟩ := readAttributes_ok (as := []) (recordLength hb r1) r2 inv_empty h2
    rw [List.nil_append] at a2
    obtain ⟨A, A1, A2⟩ := get_one a2 h3
    have hle := Layout.total_append (runLen (clusterSize U)) (runs ++ p.runs) rest
    rw [← hpre] at hle
    obtain ⟨m1, g1, g2, g3⟩ := addGroup_ok hb hm (fun r hr => hd r (by rw [hpre]; exact List.mem_append_left _ hr))
      (fun r hr => hw r (by rw [hpre]; exact List.mem_append_left _ hr)) h4 (by omega)
    obtain ⟨m', b1, b2⟩ := ih hd hw g2 (by omega)
    refine ⟨m', ?_, b2⟩
    have hmem : ∀ r ∈ runs, r ∈ mft := fun r hr => by rw [hpre, List.append_assoc]; exact List.mem_append_left _ hr
    have k5 : R.get A.groups 0 = .ok (groupOf p) := by rw [A2.groups]; rfl
    rw [addEntries, getEntry_ok hm.ok (fun r hr => hd r (hmem r hr)) (fun r hr => hw r (hmem r hr)) hent hU hm.bound r1, R.ok_bind, a1, R.ok_bind]
    unfold addData
    rw [A1]
    simp only
    rw [k5, R.ok_bind, g1, R.ok_bind, b1]

theorem readMft_ok {U : List Byte} {mft : List Run} (hb : Spec.NtfsFs.Boot U) (hU : U.length < 2 ^ 63) (h : Spec.NtfsFs.Mft U mft) :
    ∃ m, readMft U (expectedBoot U) = .ok m ∧ MftOk U mft m ∧ m.tree.dataSize < 2 ^ 63 := by
  obtain ⟨⟨record, as, p, f1, f2, f3, f4, f5, f7, f8, f9, f10⟩, hd, hw⟩ := h
  have hcs := cluster_pos hb
  have hent := hb.entry
  have hrl : record.length = entrySize U := by rw [← (stored_length f2).1, bytesAt_length f1]
  have hdr : DataRuns U (clusterSize U) mft := hd
  obtain ⟨rest, hpre⟩ : ∃ rest, mft = p.runs ++ rest := by
    cases f8 with
    | single => exact ⟨[], by simp⟩
    | list _ _ _ _ _ h => exact extended_prefix h
  obtain ⟨attrs, a1, a2⟩ := readAttributes_ok (as := []) (by omega) f4 inv_empty f5
  rw [List.nil_append] at a2
  obtain ⟨A, A1, A2⟩ := get_clusters a2 (by decide) f7
  have htot : Layout.total (runLen (clusterSize U)) mft = p.allocated := f9
  have hsize : p.allocated / entrySize U * entrySize U = p.allocated := Nat.div_mul_cancel (htot ▸ total_dvd mft hw)
  have hlt : p.allocated < 2 ^ 63 := by
    have : p.allocated / entrySize U * entrySize U ≤ (2 ^ 32 - 1) * 65535 := Nat.mul_le_mul (by omega) hent.2
    omega
  have hsum := Layout.total_append (runLen (clusterSize U)) p.runs rest
  rw [← hpre] at hsum
  obtain ⟨-, hp0, -, hfollow⟩ := f7
  obtain ⟨m1, g1, g2, g3⟩ := addGroup_ok (runs := []) (p := p) (m := ⟨clusterSize U, entrySize U, 0, BlockTree.new p.allocated 0 (entrySize U)⟩) hb
    ⟨⟨rfl, rfl, by simp [mftBytes], BlockTree.new_holds _ _ _ (by omega), Nat.zero_le _⟩, rfl, rfl, hlt⟩
    (fun r hr => hd r (by rw [hpre]; exact List.mem_append_left _ hr)) (fun r hr => hw r (by rw [hpre]; exact List.mem_append_left _ hr)) hfollow
    (by rw [List.nil_append]; show _ ≤ p.allocated; omega)
  rw [List.nil_append] at g2
  have g3 : m1.tree.dataSize = p.allocated := g3
  obtain ⟨refs, others, hlist, hoth, m, hm1, hm2⟩ : ∃ refs others, listOf U (clusterSize U) attrs = .ok refs ∧ otherEntries 0 refs = others ∧
      ∃ m, addEntries U others m1 = .ok m ∧ Part U mft m := by
    cases f8 with
    | single hno =>
      refine ⟨[], [], ?_, rfl, m1, rfl, g2⟩
      unfold listOf
      rw [a2.noList hno]
    | @list data refs _ others l1 l2 l3 l4 l5 l6 =>
      obtain ⟨o1, o2⟩ := otherEntries_spec 0 refs
      obtain ⟨m, hm⟩ := addEntries_ok hb hU hdr hw l6 g2 (by omega)
      exact ⟨refs, others, listOf_ok hb hU a2 f5 l2 l1 l3, ascending_unique o1 l4 fun x => by rw [o2, l5], m, hm⟩
  refine ⟨m, ?_, hm2.ok, hm2.bound⟩
  unfold readMft
  have hmul : mftStart U * clusterSize U < 2 ^ 64 := by omega
  have hb1 : (expectedBoot U).mftBlock = mftStart U := rfl
  have hb2 : (expectedBoot U).clusterSize = clusterSize U := rfl
  have hb3 : (expectedBoot U).entrySize = entrySize U := rfl
  rw [hb1, hb2, hb3, R.require_true ((Nat.le_div_iff_mul_le hcs).2 (by omega)), R.ok_bind, R.mulU_ok hmul, R.ok_bind,
    readEntryAt_ok hent f1 f2 f3, R.ok_bind]
  have k1 : (entryOf record).bad = false := rfl
  have k2 : (entryOf record).allocated = true := rfl
  have k3 : A.isResident = false := by simp [Attr.isResident, A2.nonResident]
  have k4 : A.isCompressed = false := by simp [Attr.isCompressed, A2.flags]
  have k5 : R.get A.groups 0 = .ok (groupOf p) := by rw [A2.groups]; rfl
  rw [R.require_true k1, R.ok_bind, R.require_true k2, R.ok_bind, a1, R.ok_bind, A1]
  simp only [Fat.orErr]
  rw [R.ok_bind, R.require_true k3, R.ok_bind, R.require_true k4, R.ok_bind]
  unfold treeSize
  rw [R.check_true (by omega), R.ok_bind, A2.allocated, R.require_true f10, R.ok_bind, R.pure_eq, R.ok_bind, hsize, k5, R.ok_bind, g1, R.ok_bind, hlist, R.ok_bind,
    hoth, hm1]

/-! ## Volumes -/

/-- The volume as it is kept. -/
structure VolumeOk (U : List Byte) (V : Spec.NtfsFs.Volume) (v : Volume) : Prop where
  boot : v.boot = expectedBoot U
  mft : MftOk U V.mft v.mft
  bound : v.mft.tree.dataSize < 2 ^ 63
  folds : v.folds = foldOf V.upper
  label : v.label = V.label
  information : v.information = V.information.map fun i => ⟨i.1, i.2.1, i.2.2⟩

theorem getEntry_mft {U record : List Byte} {mft : List Run} {m : Mft} {n : Nat} (hb : Spec.NtfsFs.Boot U) (hU : U.length < 2 ^ 63) (hM : Spec.NtfsFs.Mft U mft)
    (hm : MftOk U mft m) (hds : m.tree.dataSize < 2 ^ 63) (h : EntryAt U mft n record) : getEntry U m n = .ok (entryOf record) :=
  getEntry_ok hm hM.data hM.whole hb.entry hU hds h

theorem metaAttributes_ok {U : List Byte} {mft : List Run} {m : Mft} {n : Nat} {as : List Attribute} (hb : Spec.NtfsFs.Boot U) (hU : U.length < 2 ^ 63)
    (hM : Spec.NtfsFs.Mft U mft) (hm : MftOk U mft m) (hds : m.tree.dataSize < 2 ^ 63) (h : RecordAttributes U mft n as) (hs : Sound as)
    (hl : ∀ a ∈ as, a.kind ≠ 0x20) : ∃ attrs, metaAttributes U m n = .ok attrs ∧ Inv as attrs := by
  obtain ⟨record, h1, h2⟩ := h
  obtain ⟨attrs, a1, a2⟩ := readAttributes_ok (as := []) (recordLength hb h1) h2 inv_empty hs
  rw [List.nil_append] at a2
  unfold metaAttributes
  have k1 : (entryOf record).bad = false := rfl
  have k2 : (entryOf record).allocated = true := rfl
  rw [getEntry_mft hb hU hM hm hds h1, R.ok_bind, R.require_true k1, R.ok_bind, R.require_true k2, R.ok_bind, a1, R.ok_bind, R.require_true (a2.noList hl),
    R.ok_bind]
  exact ⟨attrs, rfl, a2⟩

theorem readLabel_ok {as : List Attribute} {attrs : Attrs} {label : Option (List Nat)} (hi : Inv as attrs)
    (h : (named as none 0x60 = [] ∧ label = none) ∨ ∃ flags data, flags % 256 = 0 ∧ Resident as none 0x60 flags data ∧ data.length % 2 = 0 ∧
      label = some ((unitsLe data).takeWhile (· ≠ 0))) : readLabel attrs = .ok label := by
  unfold readLabel
  rcases h with ⟨h1, rfl⟩ | ⟨flags, data, h1, h2, h3, rfl⟩
  · rw [get_none hi (by decide) h1]
  · obtain ⟨length, e⟩ := get_resident hi (by decide) h2
    obtain ⟨k1, k2, k3, -⟩ := residentAttr (k := 0x60) (length := length) (n := none) (data := data) h1
    rw [e]
    simp only
    rw [R.require_true k1, R.ok_bind, R.require_true k2, R.ok_bind, k3, Props.C15_decode_le _ h3, R.ok_bind]
    rfl

theorem volumeInformation_ok {as : List Attribute} {attrs : Attrs} {i : Option (Nat × Nat × Nat)} (hi : Inv as attrs)
    (h : (named as none 0x70 = [] ∧ i = none) ∨ ∃ flags data, flags % 256 = 0 ∧ Resident as none 0x70 flags data ∧ 12 ≤ data.length ∧
      i = some (field data 8 1, field data 9 1, field data 10 2)) : volumeInformation attrs = .ok (i.map fun i => ⟨i.1, i.2.1, i.2.2⟩) := by
  unfold volumeInformation
  rcases h with ⟨h1, rfl⟩ | ⟨flags, data, h1, h2, h3, rfl⟩
  · rw [get_none hi (by decide) h1]; rfl
  · obtain ⟨length, e⟩ := get_resident hi (by decide) h2
    obtain ⟨k1, k2, k3, -⟩ := residentAttr (k := 0x70) (length := length) (n := none) (data := data) h1
    rw [e]
    simp only
    unfold readInformation
    obtain ⟨b8, g8, v8⟩ := get_ok (data := data) (off := 8) (by omega)
    obtain ⟨b9, g9, v9⟩ := get_ok (data := data) (off := 9) (by omega)
    rw [R.require_true k2, R.ok_bind, R.require_true k1, R.ok_bind, k3, R.require_true h3, R.ok_bind, g8, R.ok_bind, g9, R.ok_bind, u16_ok (by omega), R.ok_bind,
      v8, v9]
    rfl

theorem openVolume_ok {U : List Byte} {V : Spec.NtfsFs.Volume} (h : IsVolume U V) (hU : U.length < 2 ^ 63) :
    ∃ v, openVolume U = .ok v ∧ VolumeOk U V v := by
  have hb := h.boot
  obtain ⟨m, m1, m2, m3⟩ := readMft_ok hb hU h.mft
  obtain ⟨as3, r3, s3, n3, label, info⟩ := h.volume
  obtain ⟨as10, flags, p, ps, r10, s10, n10, hf, hc, hv, hsz1, hsz2, hup⟩ := h.upper
  obtain ⟨attrs3, a3, i3⟩ := metaAttributes_ok hb hU h.mft m2 m3 r3 s3 n3
  obtain ⟨attrs10, a10, i10⟩ := metaAttributes_ok hb hU h.mft m2 m3 r10 s10 n10
  obtain ⟨A, A1, A2⟩ := get_clusters i10 (by decide) hc
  obtain ⟨s, s1, -, s3⟩ := clusters_read hb hU A2 hf hc.2.2.2 hv (by omega)
  have k1 : A.isResident = false := by simp [Attr.isResident, A2.nonResident]
  have k2 : A.isCompressed = false := by
    have : flags &&& 0xff = flags % 256 := Nat.and_two_pow_sub_one_eq_mod flags 8
    simp [Attr.isCompressed, A2.flags, this, hf]
  have hfolds : readFolds U m = .ok (foldOf V.upper) := by
    unfold readFolds
    rw [a10, R.ok_bind, A1]
    simp only [Fat.orErr]
    rw [R.ok_bind, R.require_true k1, R.ok_bind, R.require_true k2, R.ok_bind, m2.cluster, s1, R.ok_bind, s3, R.ok_bind]
    simp only
    rw [R.require_true (by rw [List.length_take, clusterBytes_length hv]; omega), R.ok_bind, hup]
    rfl
  refine ⟨⟨expectedBoot U, m, foldOf V.upper, V.information.map fun i => ⟨i.1, i.2.1, i.2.2⟩, V.label⟩, ?_, ⟨rfl, m2, m3, rfl, rfl, rfl⟩⟩
  unfold openVolume
  have hr : readExactAt U 0 512 = .ok (U.take 512) := by rw [readExactAt_ok (by have := hb.length; omega), List.drop_zero]
  rw [hr, R.ok_bind, readBoot_ok hb, R.ok_bind, m1, R.ok_bind, a3, R.ok_bind, readLabel_ok i3 label, R.ok_bind, volumeInformation_ok i3 info, R.ok_bind, hfolds,
    R.ok_bind]
  rfl

/-! ## Files -/

theorem readOthers_ok {U : List Byte} {mft : List Run} {m : Mft} (hb : Spec.NtfsFs.Boot U) (hU : U.length < 2 ^ 63) (hM : Spec.NtfsFs.Mft U mft)
    (hm : MftOk U mft m) (hds : m.tree.dataSize < 2 ^ 63) {others : List Nat} {rest : List (List Attribute)} (h : List.Forall₂ (RecordAttributes U mft) others rest)
    {as : List Attribute} {attrs : Attrs} (hi : Inv as attrs) (hs : Sound (as ++ rest.flatten)) :
    ∃ attrs', readOthers U m others attrs = .ok attrs' ∧ Inv (as ++ rest.flatten) attrs' := by
  induction h generalizing as attrs with
  | nil => exact ⟨attrs, rfl, by simpa using hi⟩
  | @cons n bs others rest h1 h2 ih =>
    obtain ⟨record, r1, r2⟩ := h1
    rw [List.flatten_cons, ← List.append_assoc] at hs ⊢
    obtain ⟨attrs1, a1, a2⟩ := readAttributes_ok (recordLength hb r1) r2 hi (sound_left hs)
    obtain ⟨attrs2, b1, b2⟩ := ih a2 hs
    rw [readOthers, getEntry_mft hb hU hM hm hds r1, R.ok_bind, a1, R.ok_bind]
    exact ⟨attrs2, b1, b2⟩

/-- A file as it is read. -/
structure FileOk (U : List Byte) (V : Spec.NtfsFs.Volume) (n : Nat) (as : List Attribute) (f : File) : Prop where
  number : f.number = n
  entry : ∃ record, EntryAt U V.mft n record ∧ f.entry = entryOf record
  attrs : Inv as f.attrs
  index : f.hasIndex = true ↔ ∃ a ∈ as, a.name = Spec.NtfsFs.i30

theorem readFile_ok {U : List Byte} {V : Spec.NtfsFs.Volume} {v : Volume} {n : Nat} {as : List Attribute} (hV : IsVolume U V) (hU : U.length < 2 ^ 63)
    (hv : VolumeOk U V v) (h : FileAttributes U V.mft n as) (hs : Sound as) (hshort : ShortList U as) :
    ∃ f, readFile U v n = .ok f ∧ FileOk U V n as f := by
  have hb := hV.boot
  have hM := hV.mft
  cases h with
  | single h1 h2 =>
    obtain ⟨record, r1, r2⟩ := h1
    obtain ⟨attrs, a1, a2⟩ := readAttributes_ok (as := []) (recordLength hb r1) r2 inv_empty hs
    rw [List.nil_append] at a2
    refine ⟨⟨n, entryOf record, attrs, attrs.has i30⟩, ?_, rfl, ⟨record, r1, rfl⟩, a2, a2.names _⟩
    unfold readFile
    rw [getEntry_mft hb hU hM hv.mft hv.bound r1, R.ok_bind, a1, R.ok_bind]
    unfold listOf
    rw [a2.noList h2]
    rfl
  | @list base data refs others rest h1 h2 h3 h4 h5 h6 =>
    have hsb := sound_left hs
    have hshort : ∀ a ∈ base, _ := fun a ha => hshort a (List.mem_append_left _ ha)
    obtain ⟨record, r1, r2⟩ := h1
    obtain ⟨attrs, a1, a2⟩ := readAttributes_ok (as := []) (recordLength hb r1) r2 inv_empty hsb
    rw [List.nil_append] at a2
    obtain ⟨attrs', b1, b2⟩ := readOthers_ok hb hU hM hv.mft hv.bound h6 a2 hs
    obtain ⟨o1, o2⟩ := otherEntries_spec n refs
    have ho : otherEntries n refs = others := ascending_unique o1 h4 fun x => by rw [o2, h5]
    refine ⟨⟨n, entryOf record, attrs', attrs'.has i30⟩, ?_, rfl, ⟨record, r1, rfl⟩, b2, b2.names _⟩
    unfold readFile
    rw [getEntry_mft hb hU hM hv.mft hv.bound r1, R.ok_bind, a1, R.ok_bind, hv.mft.cluster, listOf_ok hb hU a2 hsb h2 hshort h3, R.ok_bind, ho, b1, R.ok_bind]
    rfl

end Keramics.NtfsFs
