import Verif.Lemmas.NtfsCompression
import Verif.Props.NtfsFileSystem

/-! # C64: compressed streams of NTFS -/

namespace Keramics.Props
open Keramics.Spec Keramics.Spec.Ntfs Keramics.Spec.NtfsFs

theorem not_overlaid {as : List Attribute} {attrs : NtfsFs.Attrs} (hi : NtfsFs.Inv as attrs) (hs : Sound as) {name : Option (List Nat)}
    (hover : name = none → ¬ Overlaid as) : NtfsFs.wofMethod attrs name = none := by
  unfold NtfsFs.wofMethod
  cases hr : attrs.reparse with
  | none => rfl
  | some r =>
    cases r with
    | wof method =>
      simp only
      rw [if_neg]
      intro hn
      refine hover hn ?_
      by_cases hno : ∀ a ∈ as, a.kind ≠ 0xc0
      · rw [hi.noReparse hno] at hr; cases hr
      · simp only [not_forall, not_not] at hno
        obtain ⟨a, ha, hk⟩ := hno
        obtain ⟨data, r, hd, hra⟩ := hs.reparse a ha hk
        have hrr := hi.reparse a ha hk data r hd hra
        rw [hr] at hrr
        cases r with
        | overlay m => exact ⟨a, ha, data, m, hk, hd, hra⟩
        | junction => cases hrr
        | link => cases hrr
        | other => cases hrr
    | _ => rfl

/-- A compressed stream of a file, opened. -/
theorem open_compressed (U : List Byte) (V : Volume) (hV : IsVolume U V) (hU : U.length < 2 ^ 63) (n : Nat) (as : List Attribute) (h : IsFile U V.mft n as)
    (name : Option (List Nat)) (hover : name = none → ¬ Overlaid as) (flags : Nat) (hf : flags % 256 = 1) (p : Piece) (ps : List Piece)
    (hc : Clusters as name 0x80 flags p ps) (hv : InVolume U p ps) (units : List (List (Option Nat) × List Byte)) (hu : Units U p ps units) :
    ∃ v f c, NtfsFs.openVolume U = .ok v ∧ NtfsFs.fileByNumber U v n = .ok f ∧ f.stream v name = .ok (some (.compressed c)) ∧
      (name = none → f.size = p.size) ∧
      NtfsFs.CompressedOk U (clusterSize U) (2 ^ p.unit) p.valid units c ∧ units.length * (2 ^ p.unit * clusterSize U) = p.allocated ∧
      (∀ x ∈ units, NtfsFs.UnitOk U (clusterSize U) x.1 x.2 (x.1.countP Option.isSome)) ∧
      ∀ x ∈ units, (NtfsFs.rawOf U (clusterSize U) x.1).length = 2 ^ p.unit * clusterSize U := by
  obtain ⟨v, v1, v2⟩ := NtfsFs.openVolume_ok hV hU
  obtain ⟨f, f1, -, f2⟩ := NtfsFs.fileByNumber_ok hV hU v2 h
  have hi := f2.attrs
  have hwof := not_overlaid hi h.sound hover
  obtain ⟨A, e, k⟩ := NtfsFs.get_clusters hi (by decide) hc
  obtain ⟨c, c1, c2, c3, c4⟩ := NtfsFs.openCompressed_ok hV.boot hU k hf hc.2.2.2 hv hu
  refine ⟨v, f, c, v1, f1, ?_, fun hn => ?_, c2, c3, c4, fun x hx => ?_⟩
  · unfold NtfsFs.File.stream NtfsFs.openNamed
    rw [e]
    simp only
    rw [hwof]
    simp only
    unfold NtfsFs.openData
    have h1 : A.isResident = false := by simp [NtfsFs.Attr.isResident, k.nonResident]
    have h2 : A.isCompressed = true := by
      have h255 : flags &&& 0xff = flags % 256 := Nat.and_two_pow_sub_one_eq_mod flags 8
      simp [NtfsFs.Attr.isCompressed, k.flags, h255, hf]
    rw [h1, h2, v2.mft.cluster, c1]
    rfl
  · subst hn
    unfold NtfsFs.File.size; rw [e]; exact k.size
  · rw [NtfsFs.raw_length, hu.whole x hx]
    intro l hl
    have : some l ∈ places ((p :: ps).flatMap Piece.runs) := by rw [hu.all]; exact List.mem_flatMap.2 ⟨x, hx, hl⟩
    obtain ⟨count, lcn, h1, h2, h3⟩ := NtfsFs.mem_places this
    obtain ⟨q, hq, hr⟩ := List.mem_flatMap.1 h1
    have := hv.inside q hq count lcn hr
    refine Nat.le_trans ?_ this
    exact Nat.mul_le_mul_right _ (by omega)

/-- C64: a compressed stream of a file: what reads and seeks return, if they all succeed, is what the units have, up to the end of the valid data. -/
theorem C64_contents_partial (U : List Byte) (V : Volume) (hV : IsVolume U V) (hU : U.length < 2 ^ 63) (n : Nat) (as : List Attribute) (h : IsFile U V.mft n as)
    (name : Option (List Nat)) (hover : name = none → ¬ Overlaid as) (flags : Nat) (hf : flags % 256 = 1) (p : Piece) (ps : List Piece)
    (hc : Clusters as name 0x80 flags p ps) (hv : InVolume U p ps) (units : List (List (Option Nat) × List Byte)) (hu : Units U p ps units) :
    ∃ v f c, NtfsFs.openVolume U = .ok v ∧ NtfsFs.fileByNumber U v n = .ok f ∧ f.stream v name = .ok (some (.compressed c)) ∧
      ∀ ops, (∀ op ∈ ops, typed op) → ∀ tr, Stream.run (NtfsFs.compressedStream U (clusterSize U) c) ⟨NtfsFs.newUnitCache, 0⟩ ops = .ok tr →
        Trace true ((units.flatMap Prod.snd).take p.valid) p.valid 0 tr := by
  obtain ⟨v, f, c, v1, f1, s1, -, c2, c3, c4, c5⟩ := open_compressed U V hV hU n as h name hover flags hf p ps hc hv units hu
  refine ⟨v, f, c, v1, f1, s1, fun ops hty tr hrun => ?_⟩
  have hfit := hv.fits
  have hsz := hv.size
  have hlen : (units.flatMap Prod.snd).length = p.allocated := by
    rw [← c3]; exact flatMap_uniform_length fun x hx => by rw [(c4 x hx).length, hu.whole x hx]
  have hCl : ((units.flatMap Prod.snd).take p.valid).length = p.valid := by rw [List.length_take, hlen]; omega
  have hp : Blocks.PieceOk (NtfsFs.unitPiece U (clusterSize U) c) (NtfsFs.UnitCacheOk (2 ^ p.unit * clusterSize U) units)
      ((units.flatMap Prod.snd).take p.valid) := by
    intro s pos m out s' hi hm hpos hok
    rw [hCl] at hpos
    rcases NtfsFs.unitPiece_cases (NtfsFs.cluster_pos hV.boot) (Nat.two_pow_pos p.unit) (by rw [c3]; omega) c2 hu.whole c4 c5 (by rw [c3]; exact hsz) hi hm hpos with
      ⟨o, s'', h1, h2, h3, h4, -, -⟩ | ⟨h1, -⟩
    · rw [h1] at hok
      cases hok
      exact ⟨h2, h3, h4⟩
    · rw [h1] at hok; cases hok
  have := Blocks.blocks_sound hp ops hty (by omega) NtfsFs.newUnitCache (NtfsFs.newUnitCache_ok _ _) tr (by
    rw [hCl, ← c2.size]; exact hrun)
  rwa [hCl] at this

/-- File 4 of the sample has a stored unit, a compressed one and a sparse one: 512 times "a", 512 times "b", 50 times "cd" and zeros. -/
theorem sample4 : IsFile NtfsSample.U NtfsSample.V.mft 4 NtfsSample.attrs4 ∧ Clusters NtfsSample.attrs4 none 0x80 1 NtfsSample.compressedPiece [] ∧
    InVolume NtfsSample.U NtfsSample.compressedPiece [] ∧ ¬ Overlaid NtfsSample.attrs4 ∧ Units NtfsSample.U NtfsSample.compressedPiece [] NtfsSample.compressedUnits :=
  ⟨NtfsSample.file4, ⟨by decide +kernel, rfl, by decide, rfl, Or.inr rfl, trivial⟩,
    NtfsSample.inVolume (by decide) (by decide) (by decide) (by decide) (by decide) (by decide),
    fun ⟨a, ha, _, _, hk, _⟩ => absurd hk ((by decide +kernel : ∀ a ∈ NtfsSample.attrs4, a.kind ≠ 0xc0) a ha), NtfsSample.units4⟩

example := C64_contents_partial NtfsSample.U NtfsSample.V NtfsSample.volume_U (by rw [NtfsSample.length_U]; decide) 4 _ sample4.1 none (fun _ => sample4.2.2.2.1)
  1 rfl _ _ sample4.2.1 sample4.2.2.1 _ sample4.2.2.2.2

/-- A unit that has all its clusters: it is not compressed. -/
def Whole (units : List (List (Option Nat) × List Byte)) (j : Nat) : Prop := ∃ (lcns : List Nat) (b : List Byte), units[j]? = some (lcns.map some, b)

/-- C64: reads that start where a unit starts, that stay inside of a unit, or that start in a unit that is not compressed: they succeed. -/
theorem C64_reads_partial (U : List Byte) (V : Volume) (hV : IsVolume U V) (hU : U.length < 2 ^ 63) (n : Nat) (as : List Attribute) (h : IsFile U V.mft n as)
    (name : Option (List Nat)) (hover : name = none → ¬ Overlaid as) (flags : Nat) (hf : flags % 256 = 1) (p : Piece) (ps : List Piece)
    (hc : Clusters as name 0x80 flags p ps) (hv : InVolume U p ps) (units : List (List (Option Nat) × List Byte)) (hu : Units U p ps units) :
    ∃ v f c, NtfsFs.openVolume U = .ok v ∧ NtfsFs.fileByNumber U v n = .ok f ∧ f.stream v name = .ok (some (.compressed c)) ∧
      ∀ ops, p.valid + seekBudget ops < 2 ^ 63 →
        ReadsOnly (fun pos m => pos % (2 ^ p.unit * clusterSize U) = 0 ∨ pos % (2 ^ p.unit * clusterSize U) + m ≤ 2 ^ p.unit * clusterSize U ∨
          Whole units (pos / (2 ^ p.unit * clusterSize U))) p.valid 0 ops →
        ∃ tr, Stream.run (NtfsFs.compressedStream U (clusterSize U) c) ⟨NtfsFs.newUnitCache, 0⟩ ops = .ok tr ∧ tr.map Prod.fst = ops ∧
          Trace true ((units.flatMap Prod.snd).take p.valid) p.valid 0 tr := by
  obtain ⟨v, f, c, v1, f1, s1, -, c2, c3, c4, c5⟩ := open_compressed U V hV hU n as h name hover flags hf p ps hc hv units hu
  refine ⟨v, f, c, v1, f1, s1, fun ops hops hreads => ?_⟩
  have hfit := hv.fits
  have hsz := hv.size
  have hlen : (units.flatMap Prod.snd).length = p.allocated := by
    rw [← c3]; exact flatMap_uniform_length fun x hx => by rw [(c4 x hx).length, hu.whole x hx]
  have hCl : ((units.flatMap Prod.snd).take p.valid).length = p.valid := by rw [List.length_take, hlen]; omega
  have hcases := fun {s pos m} => NtfsFs.unitPiece_cases (cache := s) (pos := pos) (n := m) (NtfsFs.cluster_pos hV.boot) (Nat.two_pow_pos p.unit)
    (by rw [c3]; omega) c2 hu.whole c4 c5 (by rw [c3]; exact hsz)
  have hp : Blocks.PieceOk (NtfsFs.unitPiece U (clusterSize U) c) (NtfsFs.UnitCacheOk (2 ^ p.unit * clusterSize U) units)
      ((units.flatMap Prod.snd).take p.valid) := by
    intro s pos m out s' hi hm hpos hok
    rw [hCl] at hpos
    rcases hcases hi hm hpos with ⟨o, s'', h1, h2, h3, h4, -, -⟩ | ⟨h1, -⟩
    · rw [h1] at hok
      cases hok
      exact ⟨h2, h3, h4⟩
    · rw [h1] at hok; cases hok
  have ht : Blocks.PieceTotalIf (NtfsFs.unitPiece U (clusterSize U) c) (NtfsFs.UnitCacheOk (2 ^ p.unit * clusterSize U) units)
      ((units.flatMap Prod.snd).take p.valid)
      (fun pos m => pos % (2 ^ p.unit * clusterSize U) = 0 ∨ pos % (2 ^ p.unit * clusterSize U) + m ≤ 2 ^ p.unit * clusterSize U ∨
          Whole units (pos / (2 ^ p.unit * clusterSize U))) := by
    intro s pos m hi hm hpos hP
    rw [hCl] at hpos
    rcases hcases hi hm hpos with ⟨o, s'', h1, -, -, -, h5, -⟩ | ⟨-, h2, h3⟩
    · exact ⟨o, s'', h1, fun hlt => Or.inl (h5 hlt)⟩
    · exfalso
      rcases hP with hP | hP | ⟨lcns, b, hP⟩
      · rw [hP] at h3; omega
      · omega
      · unfold NtfsFs.cutOf at h2
        rw [hP] at h2
        have hl := hu.whole _ (List.mem_of_getElem? hP)
        rw [List.length_map] at hl
        simp only [List.countP_map, List.countP_eq_length.2 (fun _ _ => rfl : ∀ a ∈ lcns, (Option.isSome ∘ some) a = true)] at h2
        omega
  have := Blocks.blocks_total_if hp ht ops (by rw [hCl]; exact hops) NtfsFs.newUnitCache (NtfsFs.newUnitCache_ok _ _) (by rw [hCl]; exact hreads)
  rw [hCl] at this
  unfold NtfsFs.compressedStream
  rw [c2.size]
  exact this

/-- A read of all of the sample file, one over the end of the stored unit, and one inside of the compressed unit. -/
example : ReadsOnly (fun pos m => pos % (2 ^ NtfsSample.compressedPiece.unit * clusterSize NtfsSample.U) = 0 ∨
      pos % (2 ^ NtfsSample.compressedPiece.unit * clusterSize NtfsSample.U) + m ≤ 2 ^ NtfsSample.compressedPiece.unit * clusterSize NtfsSample.U ∨
      Whole NtfsSample.compressedUnits (pos / (2 ^ NtfsSample.compressedPiece.unit * clusterSize NtfsSample.U))) NtfsSample.compressedPiece.valid 0
    [.read 4000, .seek (.start 1000), .read 100, .read 500] := by
  rw [NtfsSample.size_U]
  show ReadsOnly (fun pos m => pos % 1024 = 0 ∨ pos % 1024 + m ≤ 1024 ∨ Whole NtfsSample.compressedUnits (pos / 1024)) 2500 0 _
  simp only [ReadsOnly, target]
  refine ⟨Or.inl rfl, Or.inr (Or.inr ⟨[15, 16], _, rfl⟩), Or.inr (Or.inl (by decide)), trivial⟩

/-- C64 does not hold of other reads: one that starts inside of a compressed unit and goes on after it panics. -/
theorem C64_violated_read (U : List Byte) (V : Volume) (hV : IsVolume U V) (hU : U.length < 2 ^ 63) (n : Nat) (as : List Attribute) (h : IsFile U V.mft n as)
    (name : Option (List Nat)) (hover : name = none → ¬ Overlaid as) (flags : Nat) (hf : flags % 256 = 1) (p : Piece) (ps : List Piece)
    (hc : Clusters as name 0x80 flags p ps) (hv : InVolume U p ps) (units : List (List (Option Nat) × List Byte)) (hu : Units U p ps units)
    (j k m : Nat) (lcns : List Nat) (b : List Byte) (rel : Nat) (hj : units[j]? = some (lcns.map some ++ List.replicate k none, b)) (hl : lcns ≠ []) (hk : 0 < k)
    (h0 : 0 < rel) (h1 : rel < 2 ^ p.unit * clusterSize U) (h2 : 2 ^ p.unit * clusterSize U < rel + m)
    (h3 : j * (2 ^ p.unit * clusterSize U) + rel + m ≤ p.valid) :
    ∃ v f c, NtfsFs.openVolume U = .ok v ∧ NtfsFs.fileByNumber U v n = .ok f ∧ f.stream v name = .ok (some (.compressed c)) ∧
      Stream.run (NtfsFs.compressedStream U (clusterSize U) c) ⟨NtfsFs.newUnitCache, 0⟩ [.seek (.start (j * (2 ^ p.unit * clusterSize U) + rel)), .read m] = .panic := by
  obtain ⟨v, f, c, v1, f1, s1, -, c2, c3, c4, c5⟩ := open_compressed U V hV hU n as h name hover flags hf p ps hc hv units hu
  refine ⟨v, f, c, v1, f1, s1, ?_⟩
  have hfit := hv.fits
  have hsz := hv.size
  have hbs := NtfsFs.cluster_pos hV.boot
  have hcases := NtfsFs.unitPiece_cases (cache := NtfsFs.newUnitCache) (pos := j * (2 ^ p.unit * clusterSize U) + rel) (n := m) hbs (Nat.two_pow_pos p.unit)
    (by rw [c3]; omega) c2 hu.whole c4 c5 (by rw [c3]; exact hsz) (NtfsFs.newUnitCache_ok _ _) (by omega) h3
  have hlen := hu.whole _ (List.mem_of_getElem? hj)
  have hunit : 0 < 2 ^ p.unit * clusterSize U := Nat.mul_pos (Nat.two_pow_pos _) hbs
  generalize hug : 2 ^ p.unit * clusterSize U = unit at *
  have hq : (j * unit + rel) / unit = j := by
    rw [Nat.mul_comm, Nat.mul_add_div hunit, Nat.div_eq_of_lt h1, Nat.add_zero]
  have hr : (j * unit + rel) % unit = rel := by
    rw [Nat.mul_comm, Nat.mul_add_mod, Nat.mod_eq_of_lt h1]
  have hcut : NtfsFs.cutOf units j = lcns.length := by
    unfold NtfsFs.cutOf
    rw [hj]
    exact NtfsFs.count_shape lcns k
  rw [hq, hr, hcut] at hcases
  simp only [List.length_append, List.length_map, List.length_replicate] at hlen
  rcases hcases with ⟨_, _, -, -, -, -, -, h6⟩ | ⟨hpanic, -⟩
  · have := h6 (List.length_pos_iff.2 hl) (by omega)
    omega
  · have hread : (NtfsFs.compressedStream U (clusterSize U) c).readData NtfsFs.newUnitCache (j * unit + rel) m = .panic := by
      unfold NtfsFs.compressedStream Blocks.reader
      simp only
      obtain ⟨m', rfl⟩ : ∃ m', m = m' + 1 := ⟨m - 1, by omega⟩
      unfold Blocks.loop
      rw [if_pos ⟨by omega, by rw [c2.size]; omega⟩]
      simp only
      rw [hpanic]; rfl
    have hs : (NtfsFs.compressedStream U (clusterSize U) c).size = p.valid := c2.size
    unfold Stream.run
    simp only [Stream.step, Stream.seek, seekOffset, R.ok_bind, R.pure_eq]
    unfold Stream.run
    simp only [Stream.step, Stream.read, hs]
    rw [if_neg (by omega), Nat.min_eq_left (by omega), hread]
    rfl

/-- In the sample 100 bytes from the byte 1000 of the compressed unit. -/
example := C64_violated_read NtfsSample.U NtfsSample.V NtfsSample.volume_U (by rw [NtfsSample.length_U]; decide) 4 _ sample4.1 none (fun _ => sample4.2.2.2.1)
  1 rfl _ _ sample4.2.1 sample4.2.2.1 _ sample4.2.2.2.2 1 1 100 [17] _ 1000 rfl (by decide) (by decide) (by decide) (by rw [NtfsSample.size_U]; decide)
  (by rw [NtfsSample.size_U]; decide) (by rw [NtfsSample.size_U]; decide)

/-- C64 does not hold of the data after the valid data: the stream ends where the valid data end, although the file is larger. -/
theorem C64_violated_size (U : List Byte) (V : Volume) (hV : IsVolume U V) (hU : U.length < 2 ^ 63) (n : Nat) (as : List Attribute) (h : IsFile U V.mft n as)
    (hover : ¬ Overlaid as) (flags : Nat) (hf : flags % 256 = 1) (p : Piece) (ps : List Piece)
    (hc : Clusters as none 0x80 flags p ps) (hv : InVolume U p ps) (units : List (List (Option Nat) × List Byte)) (hu : Units U p ps units)
    (pos m : Nat) (hpos : p.valid ≤ pos) :
    ∃ v f c, NtfsFs.openVolume U = .ok v ∧ NtfsFs.fileByNumber U v n = .ok f ∧ f.size = p.size ∧ f.stream v none = .ok (some (.compressed c)) ∧
      (NtfsFs.compressedStream U (clusterSize U) c).size = p.valid ∧
      Stream.run (NtfsFs.compressedStream U (clusterSize U) c) ⟨NtfsFs.newUnitCache, 0⟩ [.seek (.start pos), .read m] =
        .ok [(.seek (.start pos), .position pos), (.read m, .bytes [])] := by
  obtain ⟨v, f, c, v1, f1, s1, s2, c2, -⟩ := open_compressed U V hV hU n as h none (fun _ => hover) flags hf p ps hc hv units hu
  have hs : (NtfsFs.compressedStream U (clusterSize U) c).size = p.valid := c2.size
  refine ⟨v, f, c, v1, f1, s2 rfl, s1, hs, ?_⟩
  unfold Stream.run
  simp only [Stream.step, Stream.seek, seekOffset, R.ok_bind, R.pure_eq]
  unfold Stream.run
  simp only [Stream.step, Stream.read, hs]
  rw [if_pos (by omega)]
  rfl

/-- The sample file has 2600 bytes, of which 2500 are valid. -/
example : NtfsSample.compressedPiece.size = 2600 ∧ NtfsSample.compressedPiece.valid = 2500 := ⟨rfl, rfl⟩

end Keramics.Props
