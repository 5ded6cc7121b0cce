import Verif.Lemmas.Wof
import Verif.Lemmas.LzxRoom
import Verif.Props.Lzx
import Verif.Props.NtfsCompression

/-! # C74: files that the Windows Overlay Filter compressed -/

namespace Keramics.Wof
open Keramics.Spec Keramics.Spec.Ntfs Keramics.Spec.NtfsFs

/-- A read at a position. -/
theorem read_at {C : List Byte} {S : Nat} {r : Reader Unit} {pos n : Nat} (hC : C.length = S)
    (h : ∃ tr, Stream.run r ⟨(), 0⟩ [.seek (.start pos), .read n] = .ok tr ∧ tr.map Prod.fst = [.seek (.start pos), .read n] ∧ Trace true C S 0 tr) :
    ∃ s, (Stream.mk () pos).read r n = .ok ((C.drop pos).take n, s) := by
  obtain ⟨tr, h1, -, h3⟩ := h
  unfold Stream.run Stream.step Stream.seek seekOffset at h1
  simp only [R.pure_eq, R.ok_bind] at h1
  obtain ⟨tr', h0, h2⟩ := R.bind_eq_ok.1 h1
  cases h2
  clear h1
  unfold Stream.run Stream.step at h0
  obtain ⟨⟨out, s'⟩, h4, h1⟩ := R.bind_eq_ok.1 h0
  simp only at h4
  obtain ⟨⟨d, s''⟩, h5, h6⟩ := R.bind_eq_ok.1 h4
  cases h6
  obtain ⟨rest, h7, h1⟩ := R.bind_eq_ok.1 h1
  cases h1
  cases h3 with
  | seek _ h3 =>
    cases h3 with
    | read h8 h9 =>
      refine ⟨s'', ?_⟩
      rw [h5]
      have ht : target S 0 (.start pos) = (pos : Int) := rfl
      simp only [ht] at h8
      unfold readOk at h8
      by_cases h0 : (pos : Int) < S
      · rw [if_pos ⟨by omega, h0⟩] at h8
        have := h8.2.2 rfl
        simp only [Int.toNat_natCast] at this
        rw [this]
      · rw [if_neg (fun h => h0 h.2)] at h8
        have hz : (C.drop pos).take n = [] := List.eq_nil_of_length_eq_zero (by simp; omega)
        rw [hz]
        rw [h8]

/-- The stream with the compressed data, opened. -/
theorem open_ready {U : List Byte} {A : NtfsFs.Attr} {flags method unit : Nat} {p : Piece} {ps : List Piece} (hb : Boot U) (hU : U.length < 2 ^ 63)
    (k : NtfsFs.Kept A flags p ps) (hf : flags % 256 = 0) (hg : Follow 0 ((p :: ps).map NtfsFs.pieceGroup)) (hv : InVolume U p ps) (hvs : p.valid = p.size)
    (h62 : p.size < 2 ^ 62) (hu : unitOf method = .ok unit) (C : List Byte) :
    ∃ w, openStream (clusterSize U) A C.length method = .ok w ∧ w.method = method ∧ w.size = C.length ∧
      Ready U (clusterSize U) w unit (clusterBytes U p ps) p.size C := by
  have hlen := NtfsFs.clusterBytes_length hv
  obtain ⟨s, -, s1, -⟩ := NtfsFs.clusters_stream hb hU k hf hg hv [] (by simp [seekBudget]; omega)
  have h1 : A.isResident = false := by simp [NtfsFs.Attr.isResident, k.nonResident]
  have h2 : A.isCompressed = false := by
    have h255 : flags &&& 0xff = flags % 256 := Nat.and_two_pow_sub_one_eq_mod flags 8
    simp [NtfsFs.Attr.isCompressed, k.flags, h255, hf]
  refine ⟨⟨s, method, unit, A.validSize, C.length⟩, ?_, rfl, rfl, rfl, by rw [← hvs]; exact k.valid, rfl, ?_⟩
  · unfold openStream
    rw [R.require_true h2, R.ok_bind, R.require_true h1, R.ok_bind, s1, R.ok_bind, hu, R.ok_bind]
    rfl
  · intro pos n hpn
    obtain ⟨s', tr, s2, s3⟩ := NtfsFs.clusters_stream hb hU k hf hg hv [.seek (.start pos), .read n] (by simp [seekBudget]; omega)
    rw [s1] at s2
    cases s2
    obtain ⟨t, ht⟩ := read_at (C := clusterBytes U p ps) hlen ⟨tr, s3⟩
    unfold readExact
    rw [ht, R.ok_bind]
    simp only
    rw [R.require_true (by simp; omega)]
    rfl

theorem unitOf_ok {method unit : Nat} (h : Spec.Wof.Unit method unit) : unitOf method = .ok unit ∧ 0 < unit := by
  cases h <;> exact ⟨rfl, by decide⟩

theorem name_eq : Spec.Wof.name = NtfsFs.wofName := by decide +kernel

/-- LZX blocks that the decompressor handles wherever they are, whose bytes are at least 6 with no call instruction in the last 10 but 6. -/
def LzxHandled (raw plain : List Byte) : Prop :=
  raw.length % 2 = 0 ∧ ∃ bs junk, Spec.Lzx.Wf 0 Spec.Lzx.State.start bs ∧ Spec.Lzx.Ok bs ∧ Lzx.AllEven 0 Spec.Lzx.State.start bs ∧
    Spec.Lzx.wordBits raw = Spec.Lzx.encode Spec.Lzx.State.start bs ++ junk ∧ junk.length < 16 ∧ Spec.Lzx.denote bs = plain ∧
    6 ≤ plain.length ∧ ∀ i, plain.length ≤ i + 10 → i + 6 < plain.length → (Spec.Lzx.plain bs)[i]? ≠ some 0xe8

theorem LzxHandled.means {raw plain : List Byte} (h : LzxHandled raw plain) : Spec.Wof.LzxMeans raw plain := by
  obtain ⟨h0, bs, junk, h1, h2, -, h3, h4, h5, -⟩ := h
  exact ⟨h0, bs, junk, h1, h2, h3, h4, h5⟩

/-- Decompression into a buffer that may be larger. -/
theorem lzx_room {raw plain buf : List Byte} (h : LzxHandled raw plain) (hb : plain.length ≤ buf.length) (hmax : plain.length < 2 ^ 31) :
    ∃ out, Lzx.decompress raw buf = .ok (out, plain.length) ∧ plain <+: out := by
  obtain ⟨h0, bs, junk, hw, hok, hh, hdata, hj, hd, h6, hcall⟩ := h
  have hlen : (Spec.Lzx.plain bs).length = plain.length := by
    rw [← hd]
    unfold Spec.Lzx.denote
    rw [Lzx.calls_length]
  obtain ⟨st, room, e, e1, e2⟩ := Lzx.blocks_room h0 bs raw.length 0 Spec.Lzx.State.start ⟨0, 0, 0⟩ junk _ [] buf hw hh
    ⟨Lzx.start_inv raw, by rw [Lzx.start_rem, hdata]⟩ hj (by rfl) (by rw [Lzx.start_rem, Lzx.wordBits_length]; omega) (by omega) (Lzx.start_is buf) hok
    (by
      have : (Spec.Lz.run [] (Spec.Lzx.ops Spec.Lzx.State.start bs)).length = plain.length := hlen
      rw [this]
      simpa using hb)
  have e1 : st.buf = Spec.Lzx.plain bs ++ room := e1
  have e2 : st.o = (Spec.Lzx.plain bs).length := e2
  refine ⟨plain ++ room, ?_, List.prefix_append _ _⟩
  unfold Lzx.decompress
  rw [e, R.ok_bind, e1, e2]
  unfold Lzx.adjust
  rw [R.require_true (by rw [hlen]; omega)]
  have := Lzx.adjustLoop_room (Spec.Lzx.plain bs).length room (Spec.Lzx.plain bs).length [] (Spec.Lzx.plain bs) (by simp) (by omega) (Nat.le_refl _)
  simp only [List.nil_append, List.length_nil] at this
  rw [this, Lzx.calls_tail _ 0 (by simp) (by rw [hlen]; simpa using hcall), hlen]
  have : Spec.Lzx.calls 10 plain.length 0 (Spec.Lzx.plain bs) = plain := by rw [← hlen]; exact hd
  rw [this]
  rfl

end Keramics.Wof

namespace Keramics.Props
open Keramics.Spec Keramics.Spec.Ntfs Keramics.Spec.NtfsFs

/-- The contents of such a file, opened. -/
theorem open_overlaid (U : List Byte) (V : Volume) (hV : IsVolume U V) (hU : U.length < 2 ^ 63) (n : Nat) (as : List Attribute) (h : IsFile U V.mft n as)
    (method : Nat) (ho : Spec.Wof.Overlay as method) (flags0 : Nat) (p0 : Piece) (ps0 : List Piece) (hc0 : Clusters as none 0x80 flags0 p0 ps0) :
    ∃ v f, NtfsFs.openVolume U = .ok v ∧ NtfsFs.fileByNumber U v n = .ok f ∧ f.size = p0.size ∧ NtfsFs.Inv as f.attrs ∧
      ∀ A, f.attrs.get NtfsFs.wofName 0x80 = some A → f.stream v none = .ok (some (.wof A p0.valid method)) := by
  obtain ⟨v, v1, v2⟩ := NtfsFs.openVolume_ok hV hU
  obtain ⟨f, f1, -, f2⟩ := NtfsFs.fileByNumber_ok hV hU v2 h
  have hi := f2.attrs
  obtain ⟨A0, e0, k0⟩ := NtfsFs.get_clusters hi (by decide) hc0
  obtain ⟨a, ha, data, hk, hd, hra⟩ := ho
  have hrr := hi.reparse a ha hk data _ hd hra
  refine ⟨v, f, v1, f1, ?_, hi, fun A hA => ?_⟩
  · unfold NtfsFs.File.size; rw [e0]; exact k0.size
  · unfold NtfsFs.File.stream NtfsFs.openNamed
    rw [e0]
    simp only
    unfold NtfsFs.wofMethod
    rw [hrr]
    simp only [NtfsFs.reparseOf, if_pos]
    unfold NtfsFs.openWof
    rw [R.require_true (by simp [NtfsFs.Attr.isResident, k0.nonResident]), R.ok_bind, hA, k0.valid]
    rfl

/-- C74: the contents of a file that the Windows Overlay Filter compressed are those its blocks stand for: every sequence of reads and seeks. `Means` says what
compressed blocks stand for, and the decompressor of the method has to agree. What is missing: files whose data are said to be valid only in part. -/
theorem C74_contents_partial (U : List Byte) (V : Volume) (hV : IsVolume U V) (hU : U.length < 2 ^ 63) (n : Nat) (as : List Attribute) (h : IsFile U V.mft n as)
    (method unit : Nat) (ho : Spec.Wof.Overlay as method) (hunit : Spec.Wof.Unit method unit)
    (flags0 : Nat) (p0 : Piece) (ps0 : List Piece) (hc0 : Clusters as none 0x80 flags0 p0 ps0) (hv0 : p0.valid = p0.size)
    (flags : Nat) (hf : flags % 256 = 0) (p : Piece) (ps : List Piece) (hc : Clusters as Spec.Wof.name 0x80 flags p ps) (hv : InVolume U p ps)
    (hvs : p.valid = p.size) (h62 : p.size < 2 ^ 62)
    (Means : List Byte → List Byte → Prop) (lz : List Byte → List Byte → R (List Byte))
    (hlz : ∀ raw plain, Means raw plain → 0 < plain.length → plain.length ≤ unit →
      ∃ out, Wof.decompress lz method raw (List.replicate unit 0#8) = .ok out ∧ plain <+: out)
    (C : List Byte) (hC : C.length = p0.size) (hh : Spec.Wof.Holds Means unit (clusterBytes U p ps) p.size C) :
    ∃ v f o w, NtfsFs.openVolume U = .ok v ∧ NtfsFs.fileByNumber U v n = .ok f ∧ f.size = C.length ∧ f.stream v none = .ok (some o) ∧
      Wof.openWof (clusterSize U) o = .ok (some w) ∧
      ∀ ops, C.length + seekBudget ops < 2 ^ 63 →
        ∃ tr, Stream.run (Wof.stream lz U (clusterSize U) w) ⟨Wof.State.new, 0⟩ ops = .ok tr ∧ tr.map Prod.fst = ops ∧ Trace true C C.length 0 tr := by
  obtain ⟨v, f, v1, f1, f2, hi, f3⟩ := open_overlaid U V hV hU n as h method ho flags0 p0 ps0 hc0
  rw [Wof.name_eq] at hc
  obtain ⟨A, e, k⟩ := NtfsFs.get_clusters hi (by decide) hc
  obtain ⟨hu, hpos⟩ := Wof.unitOf_ok hunit
  obtain ⟨w, w1, w2, w3, w4⟩ := Wof.open_ready hV.boot hU k hf hc.2.2.2 hv hvs h62 hu C
  refine ⟨v, f, _, w, v1, f1, by rw [f2, hC], f3 A e, ?_, fun ops hops => ?_⟩
  · unfold Wof.openWof
    simp only
    rw [hv0, ← hC, w1]
    rfl
  · exact Wof.stream_ok hh w4 hpos (by omega) (by rw [w2]; exact hlz) ops hops

/-- Two units of 4096 bytes: the first is stored in three bytes, the other as it is. -/
example : Spec.Wof.Holds (fun raw plain => raw = [1#8, 2#8, 3#8] ∧ plain = List.replicate 4096 0x61#8) 4096 (leBytes 4 3 ++ [1#8, 2#8, 3#8, 0x62#8]) 8
    (List.replicate 4096 0x61#8 ++ [0x62#8]) := by
  have hlen : (List.replicate 4096 0x61#8 ++ [0x62#8]).length = 4097 := by rw [List.length_append, List.length_replicate]; rfl
  have hc : Spec.Wof.count 4096 (List.replicate 4096 0x61#8 ++ [0x62#8]).length = 2 := by rw [hlen]; rfl
  have h0 : Spec.bytesAt (List.replicate 4096 0x61#8 ++ [0x62#8]) (0 * 4096) 4096 = List.replicate 4096 0x61#8 := by
    unfold Spec.bytesAt
    rw [Nat.zero_mul, List.drop_zero]
    exact List.take_left' List.length_replicate
  have h1 : Spec.bytesAt (List.replicate 4096 0x61#8 ++ [0x62#8]) (1 * 4096) 4096 = [0x62#8] := by
    unfold Spec.bytesAt
    rw [Nat.one_mul, List.drop_left' List.length_replicate]
    rfl
  have two : ∀ i, i < 2 → i = 0 ∨ i = 1 := by omega
  refine ⟨by decide, ?_, ?_⟩ <;> rw [hc] <;> intro i hi
  · rcases two i hi with rfl | rfl <;> decide +kernel
  · rcases two i hi with rfl | rfl
    · rw [h0, if_neg (by rw [List.length_replicate]; decide +kernel)]
      exact ⟨by decide +kernel, rfl⟩
    · rw [h1, if_pos (by decide +kernel)]
      decide +kernel

/-- C74: the contents of a file that was compressed with LZX. What is missing: what is missing in C65, and files whose data are said to be valid only in part. -/
theorem C74_lzx_partial (U : List Byte) (V : Volume) (hV : IsVolume U V) (hU : U.length < 2 ^ 63) (n : Nat) (as : List Attribute) (h : IsFile U V.mft n as)
    (ho : Spec.Wof.Overlay as 1)
    (flags0 : Nat) (p0 : Piece) (ps0 : List Piece) (hc0 : Clusters as none 0x80 flags0 p0 ps0) (hv0 : p0.valid = p0.size)
    (flags : Nat) (hf : flags % 256 = 0) (p : Piece) (ps : List Piece) (hc : Clusters as Spec.Wof.name 0x80 flags p ps) (hv : InVolume U p ps)
    (hvs : p.valid = p.size) (h62 : p.size < 2 ^ 62)
    (C : List Byte) (hC : C.length = p0.size)
    (hh : Spec.Wof.Holds (fun raw plain => Spec.Wof.LzxMeans raw plain ∧ Wof.LzxHandled raw plain) 32768 (clusterBytes U p ps) p.size C)
    (lz : List Byte → List Byte → R (List Byte)) :
    ∃ v f o w, NtfsFs.openVolume U = .ok v ∧ NtfsFs.fileByNumber U v n = .ok f ∧ f.size = C.length ∧ f.stream v none = .ok (some o) ∧
      Wof.openWof (clusterSize U) o = .ok (some w) ∧
      ∀ ops, C.length + seekBudget ops < 2 ^ 63 →
        ∃ tr, Stream.run (Wof.stream lz U (clusterSize U) w) ⟨Wof.State.new, 0⟩ ops = .ok tr ∧ tr.map Prod.fst = ops ∧ Trace true C C.length 0 tr := by
  refine C74_contents_partial U V hV hU n as h 1 32768 ho .lzx flags0 p0 ps0 hc0 hv0 flags hf p ps hc hv hvs h62 _ lz ?_ C hC hh
  intro raw plain hm _ hl
  obtain ⟨out, e1, e2⟩ := Wof.lzx_room (buf := List.replicate 32768 0#8) hm.2 (by rw [List.length_replicate]; exact hl) (by omega)
  refine ⟨out, ?_, e2⟩
  unfold Wof.decompress
  rw [if_neg (by decide), if_pos rfl, e1]
  rfl

instance decEven : (pos : Nat) → (st : Spec.Lzx.State) → (bs : List Spec.Lzx.Block) → Decidable (Lzx.AllEven pos st bs)
  | _, _, [] => isTrue trivial
  | pos, st, b :: bs => @instDecidableAnd _ _ _ (decEven (pos + (b.bits st).length) (b.body.next st) bs)

/-- File 1 of the sample. -/
def wofPlain : List Byte := [97, 98, 98, 98, 98, 98, 98, 98, 98, 98, 98, 98, 98, 98, 98, 97, 98, 98, 98, 232, 13, 0, 0, 0, 1, 2, 3, 4, 5, 6, 7]

theorem wof_handled : Wof.LzxHandled NtfsSample.wofBytes wofPlain := by
  have h : ∀ i < 31, 31 ≤ i + 10 → i + 6 < 31 → (Spec.Lzx.plain (lzxBlocks.take 3))[i]? ≠ some 0xe8 := by decide +kernel
  refine ⟨by decide +kernel, lzxBlocks.take 3, [], by decide +kernel, by decide +kernel, by decide +kernel, by decide +kernel, by decide, by decide +kernel, by decide, ?_⟩
  intro i h1 h2
  have hl : wofPlain.length = 31 := rfl
  rw [hl] at h1 h2
  exact h i (by omega) h1 h2

theorem wof_holds : Spec.Wof.Holds (fun raw plain => Spec.Wof.LzxMeans raw plain ∧ Wof.LzxHandled raw plain) 32768 NtfsSample.wofBytes 130 wofPlain := by
  have hc : Spec.Wof.count 32768 wofPlain.length = 1 := by decide
  have h0 : Spec.bytesAt wofPlain (0 * 32768) 32768 = wofPlain := List.take_of_length_le (by decide)
  have hb : Spec.Wof.block NtfsSample.wofBytes 130 1 0 = NtfsSample.wofBytes := by decide +kernel
  refine ⟨by decide +kernel, ?_, ?_⟩ <;> rw [hc] <;> intro i hi <;> obtain rfl : i = 0 := by omega
  · decide +kernel
  · rw [h0, hb, if_neg (by decide +kernel)]
    exact ⟨wof_handled.means, wof_handled⟩

theorem wofName_eq : Spec.Wof.name = NtfsSample.wofName := by decide +kernel

theorem sample1 : IsFile NtfsSample.U NtfsSample.V.mft 1 NtfsSample.attrs1 ∧ Spec.Wof.Overlay NtfsSample.attrs1 1 ∧
    Clusters NtfsSample.attrs1 none 0x80 0 NtfsSample.wofShown [] ∧ Clusters NtfsSample.attrs1 Spec.Wof.name 0x80 0 NtfsSample.wofPiece [] ∧
    InVolume NtfsSample.U NtfsSample.wofPiece [] ∧ clusterBytes NtfsSample.U NtfsSample.wofPiece [] = NtfsSample.wofBytes := by
  refine ⟨NtfsSample.file1, ⟨NtfsSample.overlay 1, by simp [NtfsSample.attrs1], _, rfl, rfl, ?_⟩, ⟨by decide +kernel, rfl, by decide, rfl, Or.inr rfl, trivial⟩,
    by rw [wofName_eq]; exact ⟨by decide +kernel, rfl, by decide, rfl, Or.inr rfl, trivial⟩,
    NtfsSample.inVolume (by decide) (by decide) (by decide) (by decide) (by decide) (by decide), by decide +kernel⟩
  have := ReparseAt.overlay (data := leBytes 4 0x80000017 ++ (leBytes 2 16 ++ (leBytes 2 0 ++ (leBytes 4 1 ++
    (leBytes 4 2 ++ (leBytes 4 1 ++ leBytes 4 1)))))) (by decide +kernel) (by decide +kernel)
  exact this

example := C74_lzx_partial NtfsSample.U NtfsSample.V NtfsSample.volume_U (by rw [NtfsSample.length_U]; decide) 1 _ sample1.1 sample1.2.1
  0 _ _ sample1.2.2.1 rfl 0 rfl _ _ sample1.2.2.2.1 sample1.2.2.2.2.1 rfl (by decide) wofPlain rfl (by rw [sample1.2.2.2.2.2]; exact wof_holds)

/-- C74: files with another method, with a stream of compressed data that is missing, that is in its record or that is compressed itself, or whose contents are
in their record: they are refused. -/
theorem C74_refused (U : List Byte) (V : Volume) (hV : IsVolume U V) (hU : U.length < 2 ^ 63) (n : Nat) (as : List Attribute) (h : IsFile U V.mft n as)
    (method : Nat) (ho : Spec.Wof.Overlay as method) :
    ∃ v f, NtfsFs.openVolume U = .ok v ∧ NtfsFs.fileByNumber U v n = .ok f ∧
      (∀ flags data, Resident as none 0x80 flags data → f.stream v none = .err) ∧
      ∀ flags0 p0 ps0, Clusters as none 0x80 flags0 p0 ps0 →
        (named as Spec.Wof.name 0x80 = [] → f.stream v none = .err) ∧
        (∀ flags data, Resident as Spec.Wof.name 0x80 flags data → ∃ o, f.stream v none = .ok (some o) ∧ Wof.openWof (clusterSize U) o = .err) ∧
        ∀ flags p ps, Clusters as Spec.Wof.name 0x80 flags p ps →
          (flags % 256 ≠ 0 → ∃ o, f.stream v none = .ok (some o) ∧ Wof.openWof (clusterSize U) o = .err) ∧
          (flags % 256 = 0 → InVolume U p ps → p.valid = p.size → (∀ unit, ¬ Spec.Wof.Unit method unit) →
            ∃ o, f.stream v none = .ok (some o) ∧ Wof.openWof (clusterSize U) o = .err) := by
  obtain ⟨v, v1, v2⟩ := NtfsFs.openVolume_ok hV hU
  obtain ⟨f, f1, -, f2⟩ := NtfsFs.fileByNumber_ok hV hU v2 h
  have hi := f2.attrs
  refine ⟨v, f, v1, f1, fun flags data hr => ?_, fun flags0 p0 ps0 hc0 => ⟨fun hno => ?_, fun flags data hr => ?_, fun flags p ps hc => ?_⟩⟩
  · obtain ⟨length, e⟩ := NtfsFs.get_resident hi (by decide) hr
    obtain ⟨a, ha, data', hk, hd, hra⟩ := ho
    have hrr := hi.reparse a ha hk data' _ hd hra
    unfold NtfsFs.File.stream NtfsFs.openNamed
    rw [e]
    simp only
    unfold NtfsFs.wofMethod
    rw [hrr]
    simp only [NtfsFs.reparseOf, if_pos]
    unfold NtfsFs.openWof
    rw [R.require_false (by simp [NtfsFs.Attr.isResident, NtfsFs.attrOf])]
    rfl
  · obtain ⟨A0, e0, k0⟩ := NtfsFs.get_clusters hi (by decide) hc0
    obtain ⟨a, ha, data', hk, hd, hra⟩ := ho
    have hrr := hi.reparse a ha hk data' _ hd hra
    rw [Wof.name_eq] at hno
    unfold NtfsFs.File.stream NtfsFs.openNamed
    rw [e0]
    simp only
    unfold NtfsFs.wofMethod
    rw [hrr]
    simp only [NtfsFs.reparseOf, if_pos]
    unfold NtfsFs.openWof
    rw [R.require_true (by simp [NtfsFs.Attr.isResident, k0.nonResident]), R.ok_bind, NtfsFs.get_none hi (by decide) hno]
    rfl
  all_goals
    obtain ⟨v', f', v1', f1', -, -, f3⟩ := open_overlaid U V hV hU n as h method ho flags0 p0 ps0 hc0
    rw [v1] at v1'
    cases v1'
    rw [f1] at f1'
    cases f1'
  · rw [Wof.name_eq] at hr
    obtain ⟨length, e⟩ := NtfsFs.get_resident hi (by decide) hr
    refine ⟨_, f3 _ e, ?_⟩
    unfold Wof.openWof Wof.openStream
    simp only
    by_cases hcp : (NtfsFs.attrOf length 0 ⟨0x80, flags, NtfsFs.wofName, .resident data⟩).isCompressed = false
    · rw [R.require_true hcp, R.ok_bind, R.require_false (by simp [NtfsFs.Attr.isResident, NtfsFs.attrOf])]
      rfl
    · rw [R.require_false hcp]
      rfl
  · rw [Wof.name_eq] at hc
    obtain ⟨A, e, k⟩ := NtfsFs.get_clusters hi (by decide) hc
    have h255 : flags &&& 0xff = flags % 256 := Nat.and_two_pow_sub_one_eq_mod flags 8
    refine ⟨fun hf => ⟨_, f3 A e, ?_⟩, fun hf hv hvs hm => ⟨_, f3 A e, ?_⟩⟩
    · unfold Wof.openWof Wof.openStream
      simp only
      rw [R.require_false (by simp [NtfsFs.Attr.isCompressed, k.flags, h255, hf])]
      rfl
    · obtain ⟨s, -, s1, -⟩ := NtfsFs.clusters_stream hV.boot hU k hf hc.2.2.2 hv [] (by
        have := hv.fits
        have := hv.size
        simp [seekBudget]; omega)
      unfold Wof.openWof Wof.openStream
      simp only
      rw [R.require_true (by simp [NtfsFs.Attr.isCompressed, k.flags, h255, hf]), R.ok_bind,
        R.require_true (by simp [NtfsFs.Attr.isResident, k.nonResident]), R.ok_bind, s1, R.ok_bind]
      have : Wof.unitOf method = .err := by
        match method, hm with
        | 0, hm => exact absurd .huffman4 (hm _)
        | 1, hm => exact absurd .lzx (hm _)
        | 2, hm => exact absurd .huffman8 (hm _)
        | 3, hm => exact absurd .huffman16 (hm _)
        | n + 4, _ => rfl
      rw [this]
      rfl

example := C74_refused NtfsSample.U NtfsSample.V NtfsSample.volume_U (by rw [NtfsSample.length_U]; decide) 1 _ sample1.1 1 sample1.2.1

example : (∀ unit, ¬ Spec.Wof.Unit 4 unit) ∧ ∀ flags data, ¬ Resident NtfsSample.attrs1 none 0x80 flags data := by
  refine ⟨fun unit h => (by cases h), fun flags data h => ?_⟩
  have : named NtfsSample.attrs1 none 0x80 = [NtfsSample.wofShown.attribute 0x80 0 none] := by decide +kernel
  unfold Resident at h
  rw [this] at h
  cases h

/-- C74 does not hold in full: if a block ends before it starts, a read in its unit panics instead of giving an error. -/
theorem C74_violated_decreasing (U : List Byte) (V : Volume) (hV : IsVolume U V) (hU : U.length < 2 ^ 63) (n : Nat) (as : List Attribute) (h : IsFile U V.mft n as)
    (method unit : Nat) (ho : Spec.Wof.Overlay as method) (hunit : Spec.Wof.Unit method unit)
    (flags0 : Nat) (p0 : Piece) (ps0 : List Piece) (hc0 : Clusters as none 0x80 flags0 p0 ps0)
    (flags : Nat) (hf : flags % 256 = 0) (p : Piece) (ps : List Piece) (hc : Clusters as Spec.Wof.name 0x80 flags p ps) (hv : InVolume U p ps)
    (hvs : p.valid = p.size) (h62 : p.size < 2 ^ 62)
    (inside : ∀ i, i ≤ Spec.Wof.count unit p0.valid → Spec.Wof.start (clusterBytes U p ps) p.size (Spec.Wof.count unit p0.valid) i ≤ p.size)
    (i : Nat) (hi : i < Spec.Wof.count unit p0.valid)
    (hd : Spec.Wof.start (clusterBytes U p ps) p.size (Spec.Wof.count unit p0.valid) (i + 1) <
      Spec.Wof.start (clusterBytes U p ps) p.size (Spec.Wof.count unit p0.valid) i)
    (lz : List Byte → List Byte → R (List Byte)) (m : Nat) (hm : 0 < m) :
    ∃ v f o w, NtfsFs.openVolume U = .ok v ∧ NtfsFs.fileByNumber U v n = .ok f ∧ f.stream v none = .ok (some o) ∧
      Wof.openWof (clusterSize U) o = .ok (some w) ∧
      Stream.run (Wof.stream lz U (clusterSize U) w) ⟨Wof.State.new, 0⟩ [.seek (.start (i * unit)), .read m] = .panic := by
  obtain ⟨v, f, v1, f1, -, hinv, f3⟩ := open_overlaid U V hV hU n as h method ho flags0 p0 ps0 hc0
  rw [Wof.name_eq] at hc
  obtain ⟨A, e, k⟩ := NtfsFs.get_clusters hinv (by decide) hc
  obtain ⟨hu, hpos⟩ := Wof.unitOf_ok hunit
  have hl : (List.replicate p0.valid 0#8).length = p0.valid := List.length_replicate
  obtain ⟨w, w1, -, -, w4⟩ := Wof.open_ready hV.boot hU k hf hc.2.2.2 hv hvs h62 hu (List.replicate p0.valid 0#8)
  refine ⟨v, f, _, w, v1, f1, f3 A e, ?_, ?_⟩
  · unfold Wof.openWof
    simp only
    rw [hl] at w1
    rw [w1]
    rfl
  · refine Wof.decreasing (C := List.replicate p0.valid 0#8) (by rw [NtfsFs.clusterBytes_length hv]) ?_ w4 hpos (by omega) lz ?_ ?_ hm
    · rw [hl]; exact inside
    · rw [hl]; exact hi
    · rw [hl]; exact hd

theorem sample12 : IsFile NtfsSample.U NtfsSample.V.mft 12 NtfsSample.attrs12 ∧ Spec.Wof.Overlay NtfsSample.attrs12 0 ∧
    Clusters NtfsSample.attrs12 none 0x80 0 NtfsSample.badShown [] ∧ Clusters NtfsSample.attrs12 Spec.Wof.name 0x80 0 NtfsSample.badPiece [] ∧
    InVolume NtfsSample.U NtfsSample.badPiece [] ∧ clusterBytes NtfsSample.U NtfsSample.badPiece [] = NtfsSample.badBytes := by
  refine ⟨NtfsSample.file12, ⟨NtfsSample.overlay 0, by simp [NtfsSample.attrs12], _, rfl, rfl, ?_⟩, ⟨by decide +kernel, rfl, by decide, rfl, Or.inr rfl, trivial⟩,
    by rw [wofName_eq]; exact ⟨by decide +kernel, rfl, by decide, rfl, Or.inr rfl, trivial⟩,
    NtfsSample.inVolume (by decide) (by decide) (by decide) (by decide) (by decide) (by decide), by decide +kernel⟩
  have := ReparseAt.overlay (data := leBytes 4 0x80000017 ++ (leBytes 2 16 ++ (leBytes 2 0 ++ (leBytes 4 1 ++
    (leBytes 4 2 ++ (leBytes 4 1 ++ leBytes 4 0)))))) (by decide +kernel) (by decide +kernel)
  exact this

/-- File 12 of the sample has three units; its second block starts at 13 and ends at 11. -/
example := C74_violated_decreasing NtfsSample.U NtfsSample.V NtfsSample.volume_U (by rw [NtfsSample.length_U]; decide) 12 _ sample12.1 0 4096 sample12.2.1 .huffman4
  0 _ _ sample12.2.2.1 0 rfl _ _ sample12.2.2.2.1 sample12.2.2.2.2.1 rfl (by decide)
  (by
    rw [sample12.2.2.2.2.2]
    exact (by decide +kernel : ∀ i, i ≤ Spec.Wof.count 4096 8500 → Spec.Wof.start NtfsSample.badBytes 14 (Spec.Wof.count 4096 8500) i ≤ 14))
  1 (by decide) (by
    rw [sample12.2.2.2.2.2]
    exact (by decide +kernel : Spec.Wof.start NtfsSample.badBytes 14 (Spec.Wof.count 4096 8500) 2 < Spec.Wof.start NtfsSample.badBytes 14 (Spec.Wof.count 4096 8500) 1))

/-- C74 does not hold in full: the stream ends where the data that are said to be valid do, not where the file does. -/
theorem C74_violated_valid (U : List Byte) (V : Volume) (hV : IsVolume U V) (hU : U.length < 2 ^ 63) (n : Nat) (as : List Attribute) (h : IsFile U V.mft n as)
    (method unit : Nat) (ho : Spec.Wof.Overlay as method) (hunit : Spec.Wof.Unit method unit)
    (flags0 : Nat) (p0 : Piece) (ps0 : List Piece) (hc0 : Clusters as none 0x80 flags0 p0 ps0) (h63 : p0.valid < 2 ^ 63)
    (flags : Nat) (hf : flags % 256 = 0) (p : Piece) (ps : List Piece) (hc : Clusters as Spec.Wof.name 0x80 flags p ps) (hv : InVolume U p ps)
    (hvs : p.valid = p.size) (h62 : p.size < 2 ^ 62) (lz : List Byte → List Byte → R (List Byte)) :
    ∃ v f o w, NtfsFs.openVolume U = .ok v ∧ NtfsFs.fileByNumber U v n = .ok f ∧ f.size = p0.size ∧ f.stream v none = .ok (some o) ∧
      Wof.openWof (clusterSize U) o = .ok (some w) ∧
      Stream.run (Wof.stream lz U (clusterSize U) w) ⟨Wof.State.new, 0⟩ [.seek (.fromEnd 0)] = .ok [(.seek (.fromEnd 0), .position p0.valid)] := by
  obtain ⟨v, f, v1, f1, f2, hinv, f3⟩ := open_overlaid U V hV hU n as h method ho flags0 p0 ps0 hc0
  rw [Wof.name_eq] at hc
  obtain ⟨A, e, k⟩ := NtfsFs.get_clusters hinv (by decide) hc
  obtain ⟨hu, hpos⟩ := Wof.unitOf_ok hunit
  have hl : (List.replicate p0.valid 0#8).length = p0.valid := List.length_replicate
  obtain ⟨w, w1, -, w3, -⟩ := Wof.open_ready hV.boot hU k hf hc.2.2.2 hv hvs h62 hu (List.replicate p0.valid 0#8)
  rw [hl] at w1 w3
  refine ⟨v, f, _, w, v1, f1, f2, f3 A e, ?_, ?_⟩
  · unfold Wof.openWof
    simp only
    rw [w1]
    rfl
  · have hsz : (Wof.stream lz U (clusterSize U) w).size = p0.valid := w3
    unfold Stream.run Stream.step Stream.seek seekOffset
    simp only [hsz]
    have h1 : asI64 p0.valid = (p0.valid : Int) := by unfold asI64; rw [if_pos h63]
    have h2 : R.addI64 (p0.valid : Int) 0 = .ok (p0.valid : Int) := by
      unfold R.addI64
      rw [Int.add_zero, if_pos ⟨by omega, by omega⟩]
    have h3 : asU64 (p0.valid : Int) = p0.valid := by unfold asU64; omega
    rw [h1, h2]
    simp only [R.pure_eq, R.ok_bind, h3]
    rfl

/-- File 12 of the sample: 8500 of 9000 bytes. -/
example := C74_violated_valid NtfsSample.U NtfsSample.V NtfsSample.volume_U (by rw [NtfsSample.length_U]; decide) 12 _ sample12.1 0 4096 sample12.2.1 .huffman4
  0 _ _ sample12.2.2.1 (by decide) 0 rfl _ _ sample12.2.2.2.1 sample12.2.2.2.2.1 rfl (by decide)

end Keramics.Props
