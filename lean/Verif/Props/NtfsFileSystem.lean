import Verif.Lemmas.NtfsRecords
import Verif.Props.NtfsExtendedSample
import Verif.Props.Streams

/-!
# Property theorems: NTFS volumes (C61), files (C62), directories and paths (C63)
-/

namespace Keramics.Props
open Keramics.Spec Keramics.Spec.Ntfs Keramics.Spec.NtfsFs

/-! ## C61 -/

/-- C61: what is accepted as a boot sector and what is read from it. -/
theorem C61_boot (U : List Byte) :
    ((∃ b, (readExactAt U 0 512 >>= NtfsFs.readBoot) = .ok b) ↔ Boot U) ∧
    ∀ b, (readExactAt U 0 512 >>= NtfsFs.readBoot) = .ok b → b.bytesPerSector = sectorSize U ∧ b.clusterSize = clusterSize U ∧ b.entrySize = entrySize U ∧
      b.indexSize = indexSize U ∧ b.mftBlock = field U 48 8 ∧ b.mirrorBlock = field U 56 8 ∧ b.serial = field U 72 8 := by
  have hread : ∀ d, readExactAt U 0 512 = .ok d → d = U.take 512 := fun d h => by
    have := (readExactAt_eq_ok.1 h).1
    simpa using this
  have hinv : ∀ b, (readExactAt U 0 512 >>= NtfsFs.readBoot) = .ok b → Boot U ∧ b = NtfsFs.expectedBoot U := by
    intro b h
    obtain ⟨d, h1, h2⟩ := R.bind_eq_ok.1 h
    rw [hread d h1] at h2
    have hb := NtfsFs.readBoot_inv h2
    rw [NtfsFs.readBoot_ok hb] at h2
    exact ⟨hb, (R.ok.inj h2).symm⟩
  refine ⟨⟨fun ⟨b, h⟩ => (hinv b h).1, fun h => ⟨NtfsFs.expectedBoot U, ?_⟩⟩, fun b h => ?_⟩
  · have : readExactAt U 0 512 = .ok (U.take 512) := by
      refine readExactAt_eq_ok.2 ⟨?_, ?_⟩
      · simp
      · have := h.length; simp; omega
    rw [this, R.ok_bind, NtfsFs.readBoot_ok h]
  · obtain ⟨-, rfl⟩ := hinv b h
    exact ⟨rfl, rfl, rfl, rfl, rfl, rfl, rfl⟩

example : Boot NtfsSample.U := NtfsSample.boot_U

/-- C61 does not hold in full: the exponent 32 of the size of MFT entries is not rejected but ends the program (where overflow is checked). -/
theorem C61_violated_exponent (U : List Byte) (hl : 512 ≤ U.length) (hs : Spec.bytesAt U 3 8 = [0x4e#8, 0x54#8, 0x46#8, 0x53#8, 0x20#8, 0x20#8, 0x20#8, 0x20#8])
    (hsec : sectorSize U = 512) (hc : field U 13 1 = 1) (he : field U 64 4 = 224) : NtfsFs.openVolume U = .panic := by
  have hlen : (U.take 512).length = 512 := by rw [List.length_take]; omega
  have hread : readExactAt U 0 512 = .ok (U.take 512) := readExactAt_eq_ok.2 ⟨by simp, by simp; omega⟩
  obtain ⟨b, hb, hbv⟩ := NtfsFs.get_ok (data := U.take 512) (off := 13) (by omega)
  rw [NtfsFs.field_take (by omega), hc] at hbv
  have hsec' : field U 11 2 = 512 := hsec
  have hboot : NtfsFs.readBoot (U.take 512) = .panic := by
    unfold NtfsFs.readBoot
    rw [R.require_true (by omega), R.ok_bind, slice_bytesAt' (n := 8) rfl (by omega), R.ok_bind, NtfsFs.bytesAt_take (by omega), R.require_true hs,
      R.ok_bind, NtfsFs.u16_ok (by omega), R.ok_bind, NtfsFs.field_take (by omega), hsec', R.require_true (by decide), R.ok_bind, hb, R.ok_bind, hbv]
    have e1 : NtfsFs.sectorsOf 1 = .ok 1 := rfl
    have e2 : R.mulU 32 1 512 = .ok 512 := rfl
    have e3 : NtfsFs.recordSize 512 224 = .panic := rfl
    rw [e1, R.ok_bind, e2, R.ok_bind, R.require_true (by decide), R.ok_bind, u32le_field (by omega), R.ok_bind, NtfsFs.field_take (by omega), he, e3]
    rfl
  unfold NtfsFs.openVolume
  rw [hread, R.ok_bind, hboot]
  rfl

example : ∃ U : List Byte, 512 ≤ U.length ∧ Spec.bytesAt U 3 8 = [0x4e#8, 0x54#8, 0x46#8, 0x53#8, 0x20#8, 0x20#8, 0x20#8, 0x20#8] ∧ sectorSize U = 512 ∧
    field U 13 1 = 1 ∧ field U 64 4 = 224 :=
  ⟨NtfsSample.zeros 3 ++ ([0x4e#8, 0x54#8, 0x46#8, 0x53#8, 0x20#8, 0x20#8, 0x20#8, 0x20#8, 0#8, 2#8, 1#8] ++ (NtfsSample.zeros 50 ++ (0xe0#8 :: NtfsSample.zeros 500))),
    by decide +kernel, by decide +kernel, by decide +kernel, by decide +kernel, by decide +kernel⟩

/-- C61: opening a volume. The label, the version with the flags and the serial number are those on the volume, and there are as many files as the MFT has
entries. -/
theorem C61_volume_partial (U : List Byte) (V : Volume) (h : IsVolume U V) (hU : U.length < 2 ^ 63) :
    ∃ v, NtfsFs.openVolume U = .ok v ∧ v.label = V.label ∧ v.information = V.information.map (fun i => ⟨i.1, i.2.1, i.2.2⟩) ∧ v.boot.serial = field U 72 8 ∧
      v.boot.bytesPerSector = sectorSize U ∧ v.boot.clusterSize = clusterSize U ∧
      v.mft.count = (mftBytes U V.mft).length / entrySize U ∧ ∀ n, (mftBytes U V.mft).length / entrySize U ≤ n → NtfsFs.fileByNumber U v n = .err := by
  obtain ⟨v, v1, v2⟩ := NtfsFs.openVolume_ok h hU
  refine ⟨v, v1, v2.label, v2.information, by rw [v2.boot]; rfl, by rw [v2.boot]; rfl, by rw [v2.boot]; rfl, v2.mft.count, fun n hn => ?_⟩
  unfold NtfsFs.fileByNumber
  rw [R.require_false (by rw [v2.mft.count]; omega), R.err_bind]

example : IsVolume NtfsSample.U NtfsSample.V ∧ NtfsSample.U.length < 2 ^ 63 ∧ NtfsSample.V.label = some [0x41, 0x62] ∧ NtfsSample.V.information = some (3, 1, 1) :=
  ⟨NtfsSample.volume_U, by rw [NtfsSample.length_U]; decide, rfl, rfl⟩

/-- A volume with an MFT that is described in two records. -/
example : IsVolume NtfsExtendedSample.U NtfsExtendedSample.V ∧ NtfsExtendedSample.V.mft = [.data 2 1, .data 11 3] ∧
    IsFile NtfsExtendedSample.U NtfsExtendedSample.V.mft 11 NtfsSample.attrs11 :=
  ⟨NtfsExtendedSample.volume_U, rfl, NtfsExtendedSample.file11⟩

/-! ## C62 -/

theorem stored_unique {raw r r' : List Byte} (h : Stored raw r) (h' : Stored raw r') : r = r' := by
  have e4 : field r 4 2 = field r' 4 2 := by rw [← NtfsFs.stored_field h (by decide), NtfsFs.stored_field h' (by decide)]
  have e6 : field r 6 2 = field r' 6 2 := by rw [← NtfsFs.stored_field h (by decide), NtfsFs.stored_field h' (by decide)]
  have h1 := NtfsFs.stored_restore h
  rw [e4, e6, NtfsFs.stored_restore h'] at h1
  exact (R.ok.inj h1).symm

/-- C62: a file, by its number: the reference has the sequence number, what it is goes by its attributes. -/
theorem C62_entry_partial (U : List Byte) (V : Volume) (hV : IsVolume U V) (hU : U.length < 2 ^ 63) (n : Nat) (hn : n < 2 ^ 48) (as : List Attribute)
    (h : IsFile U V.mft n as) :
    ∃ v f, NtfsFs.openVolume U = .ok v ∧ NtfsFs.fileByNumber U v n = .ok f ∧ f.number = n ∧
      (∀ record, EntryAt U V.mft n record → f.reference = field record 16 2 * 2 ^ 48 + n ∧ f.base = field record 32 8 ∧ f.journal = field record 8 8) ∧
      (f.isDirectory = true ↔ ∃ a ∈ as, a.name = i30) ∧ (f.isRoot = true ↔ n = 5) ∧ f.isBad = false ∧ f.isEmpty = false := by
  obtain ⟨v, v1, v2⟩ := NtfsFs.openVolume_ok hV hU
  obtain ⟨f, f1, -, f2⟩ := NtfsFs.fileByNumber_ok hV hU v2 h
  obtain ⟨record, r1, r2⟩ := f2.entry
  refine ⟨v, f, v1, f1, f2.number, fun record' h' => ?_, f2.index, ?_, ?_, ?_⟩
  · obtain rfl : record' = record := stored_unique h'.2.1 r1.2.1
    refine ⟨?_, ?_, ?_⟩
    · unfold NtfsFs.File.reference
      rw [r2, f2.number, Nat.shiftLeft_eq]
      show n ||| field record' 16 2 * 2 ^ 48 = _
      rw [Nat.or_comm, Nat.mul_comm, ← Nat.two_pow_add_eq_or_of_lt hn]
    · unfold NtfsFs.File.base; rw [r2]; rfl
    · unfold NtfsFs.File.journal; rw [r2]; rfl
  · unfold NtfsFs.File.isRoot; rw [f2.number, decide_eq_true_eq]
  · unfold NtfsFs.File.isBad; rw [r2]; rfl
  · unfold NtfsFs.File.isEmpty; rw [r2]; rfl

example : IsFile NtfsSample.U NtfsSample.V.mft 5 NtfsSample.attrs5 ∧ (∃ a ∈ NtfsSample.attrs5, a.name = i30) ∧
    IsFile NtfsSample.U NtfsSample.V.mft 8 (NtfsSample.attrs8 ++ NtfsSample.attrs9) :=
  ⟨NtfsSample.file5, by decide +kernel, NtfsSample.file8⟩

/-- C62 does not hold in full: a file is said to be allocated whether or not its record is in use. -/
theorem C62_violated_allocated (U : List Byte) (V : Volume) (hV : IsVolume U V) (hU : U.length < 2 ^ 63) (n : Nat) (as : List Attribute)
    (h : IsFile U V.mft n as) : ∃ v f, NtfsFs.openVolume U = .ok v ∧ NtfsFs.fileByNumber U v n = .ok f ∧ f.isAllocated = true := by
  obtain ⟨v, v1, v2⟩ := NtfsFs.openVolume_ok hV hU
  obtain ⟨f, f1, -, f2⟩ := NtfsFs.fileByNumber_ok hV hU v2 h
  obtain ⟨record, r1, r2⟩ := f2.entry
  exact ⟨v, f, v1, f1, by unfold NtfsFs.File.isAllocated; rw [r2]; rfl⟩

/-- File 6 of the sample is not in use. -/
example : IsFile NtfsSample.U NtfsSample.V.mft 6 NtfsSample.attrs6 ∧ ∃ record, EntryAt NtfsSample.U NtfsSample.V.mft 6 record ∧ field record 22 2 = 0 :=
  ⟨NtfsSample.file6, NtfsSample.entry 6 6 0 NtfsSample.attrs6 0, NtfsSample.entryB_ok (by decide +kernel), by decide +kernel⟩

/-- C62 does not hold in full: reading the attributes of a record does not end if it has a file name attribute of size 0, however often the loop is run. -/
theorem C62_violated_endless (record : List Byte) (o : Nat) (hl : o + 24 ≤ record.length) (hk : field record o 4 = 0x30) (hs : field record (o + 4) 4 = 0)
    (hr : field record (o + 8) 1 = 0) (hn : field record (o + 9) 1 = 0) (hf : field record (o + 12) 2 = 0) (hd : field record (o + 16) 4 = 0) (fuel : Nat) :
    NtfsFs.attrsLoop record fuel o .empty = .panic := by
  have hrest : (record.drop o).length = record.length - o := List.length_drop
  obtain ⟨a, ha, hav⟩ := NtfsFs.get_ok (data := record.drop o) (off := 8) (by omega)
  obtain ⟨b, hb, hbv⟩ := NtfsFs.get_ok (data := record.drop o) (off := 9) (by omega)
  rw [NtfsFs.field_drop, hr] at hav
  rw [NtfsFs.field_drop, hn] at hbv
  obtain rfl : a = 0#8 := NtfsFs.byte_eq hav
  have hattr : NtfsFs.readAttr (record.drop o) = .ok ⟨0x30, 0, none, 0, 0, 0, 0, 0, [], [], 0#8, 0⟩ := by
    unfold NtfsFs.readAttr
    rw [R.require_true (by omega), R.ok_bind, u32le_field (by omega), R.ok_bind, u32le_field (by omega), R.ok_bind, ha, R.ok_bind, hb, R.ok_bind,
      NtfsFs.u16_ok (by omega), R.ok_bind, NtfsFs.u16_ok (by omega), R.ok_bind, NtfsFs.field_drop, NtfsFs.field_drop, NtfsFs.field_drop, NtfsFs.field_drop, hf,
      R.require_true (by decide), R.ok_bind, if_pos (by decide), hbv]
    unfold NtfsFs.readResidentAttr
    rw [NtfsFs.slice_rest (by omega), R.ok_bind]
    have h16 : (List.drop 16 (record.drop o)).length = record.length - o - 16 := by rw [List.length_drop, hrest]
    rw [R.require_true (by omega), R.ok_bind, u32le_field (by omega), R.ok_bind, NtfsFs.u16_ok (by omega), R.ok_bind]
    have e : field (List.drop 16 (record.drop o)) 0 4 = 0 := by rw [NtfsFs.field_drop, NtfsFs.field_drop]; exact hd
    rw [e]
    simp only [NtfsFs.readName, NtfsFs.residentData, Nat.lt_irrefl, if_false, R.ok_bind, Nat.add_zero, hk, hs]
    rfl
  have hmark : Spec.bytesAt record o 4 ≠ [0xff#8, 0xff#8, 0xff#8, 0xff#8] := by
    intro h
    have : field record o 4 = 0xffffffff := NtfsFs.leNat_ff h
    omega
  have hloop : ∀ (fuel : Nat) (attrs : NtfsFs.Attrs), attrs.find none 0x30 = none → NtfsFs.attrsLoop record fuel o attrs = .panic := by
    intro fuel
    induction fuel with
    | zero => intro _ _; rfl
    | succ fuel ih =>
      intro attrs hfind
      rw [NtfsFs.attrsLoop, R.subU_ok (by omega), R.ok_bind, R.require_true (by omega), R.ok_bind, slice_bytesAt' (n := 4) (by omega) (by omega), R.ok_bind, if_neg hmark,
        NtfsFs.slice_rest (by omega), R.ok_bind, hattr, R.ok_bind]
      have hadd : ∃ attrs', attrs.add ⟨0x30, 0, none, 0, 0, 0, 0, 0, [], [], 0#8, 0⟩ = .ok attrs' ∧ attrs'.find none 0x30 = none := by
        unfold NtfsFs.Attrs.add
        rw [hfind]
        refine ⟨(attrs.addName none).push ⟨0x30, 0, none, 0, 0, 0, 0, 0, [], [], 0#8, 0⟩, rfl, ?_⟩
        unfold NtfsFs.Attrs.find at hfind ⊢
        have : ((attrs.addName none).push ⟨0x30, 0, none, 0, 0, 0, 0, 0, [], [], 0#8, 0⟩).index = attrs.index := by
          unfold NtfsFs.Attrs.push NtfsFs.Attrs.addName
          split <;> rfl
        rw [this]
        exact hfind
      obtain ⟨attrs', h1, h2⟩ := hadd
      rw [h1, R.ok_bind]
      exact ih attrs' h2
  exact hloop fuel .empty rfl

example : ∃ record : List Byte, 56 + 24 ≤ record.length ∧ field record 56 4 = 0x30 ∧ field record (56 + 4) 4 = 0 ∧ field record (56 + 8) 1 = 0 ∧
    field record (56 + 9) 1 = 0 ∧ field record (56 + 12) 2 = 0 ∧ field record (56 + 16) 4 = 0 :=
  ⟨NtfsSample.zeros 56 ++ (0x30#8 :: NtfsSample.zeros 30), by decide +kernel, by decide +kernel, by decide +kernel, by decide +kernel, by decide +kernel, by decide +kernel,
    by decide +kernel⟩

theorem raw_length {U : List Byte} {mft : List Ntfs.Run} {n : Nat} (hn : n < (mftBytes U mft).length / entrySize U) :
    (Spec.bytesAt (mftBytes U mft) (n * entrySize U) (entrySize U)).length = entrySize U := by
  refine Keramics.bytesAt_length ?_
  have h1 := Nat.div_mul_le_self (mftBytes U mft).length (entrySize U)
  have h2 := Nat.mul_le_mul_right (entrySize U) (Nat.succ_le_of_lt hn)
  rw [Nat.succ_mul] at h2
  omega

/-- C62: a file that is found by its number is said to be empty, bad or allocated by the signature of its record, which has one of three signatures and, if it
is allocated, the size of a record. -/
theorem C62_signature_partial (U : List Byte) (V : Volume) (hV : IsVolume U V) (hU : U.length < 2 ^ 63) (n : Nat) (hn : n < (mftBytes U V.mft).length / entrySize U)
    (raw : List Byte) (hraw : raw = Spec.bytesAt (mftBytes U V.mft) (n * entrySize U) (entrySize U)) :
    ∃ v, NtfsFs.openVolume U = .ok v ∧ ∀ f, NtfsFs.fileByNumber U v n = .ok f →
      (raw.take 4 = [0#8, 0#8, 0#8, 0#8] ∨ raw.take 4 = [0x42#8, 0x41#8, 0x41#8, 0x44#8] ∨ raw.take 4 = [0x46#8, 0x49#8, 0x4c#8, 0x45#8]) ∧
      (f.isEmpty = true ↔ raw.take 4 = [0#8, 0#8, 0#8, 0#8]) ∧ (f.isBad = true ↔ raw.take 4 = [0x42#8, 0x41#8, 0x41#8, 0x44#8]) ∧
      (f.isAllocated = true ↔ raw.take 4 = [0x46#8, 0x49#8, 0x4c#8, 0x45#8]) ∧ (f.isAllocated = true → field raw 28 4 = entrySize U) := by
  obtain ⟨v, v1, v2⟩ := NtfsFs.openVolume_ok hV hU
  refine ⟨v, v1, fun f hf => ?_⟩
  obtain ⟨h, -⟩ := NtfsFs.fileByNumber_entry hV hU v2 hn hf
  rw [← hraw] at h
  have hrl := raw_length hn
  rw [← hraw] at hrl
  rw [← hrl]
  unfold NtfsFs.File.isEmpty NtfsFs.File.isBad NtfsFs.File.isAllocated
  exact NtfsFs.readEntry_signature h

/-- The records of the sample: empty, not used, allocated. -/
example : IsVolume NtfsSample.U NtfsSample.V ∧ 2 < (mftBytes NtfsSample.U NtfsSample.V.mft).length / entrySize NtfsSample.U ∧
    (Spec.bytesAt (mftBytes NtfsSample.U NtfsSample.V.mft) (2 * entrySize NtfsSample.U) (entrySize NtfsSample.U)) = NtfsSample.zeros 512 := by
  refine ⟨NtfsSample.volume_U, ?_, ?_⟩
  · have : NtfsSample.V.mft = NtfsSample.mftRuns := rfl
    rw [this, NtfsSample.mftBytes_U, NtfsSample.entry_U]
    decide +kernel
  · have : NtfsSample.V.mft = NtfsSample.mftRuns := rfl
    rw [this, NtfsSample.mftBytes_U, NtfsSample.entry_U]
    decide +kernel

/-- C62 does not hold in full: a record that was never used is refused instead of being said to be empty. -/
theorem C62_violated_empty (U : List Byte) (V : Volume) (hV : IsVolume U V) (hU : U.length < 2 ^ 63) (n : Nat) (hn : n < (mftBytes U V.mft).length / entrySize U)
    (hraw : Spec.bytesAt (mftBytes U V.mft) (n * entrySize U) (entrySize U) = List.replicate (entrySize U) 0#8) :
    ∃ v, NtfsFs.openVolume U = .ok v ∧ NtfsFs.fileByNumber U v n = .err := by
  obtain ⟨v, v1, v2⟩ := NtfsFs.openVolume_ok hV hU
  refine ⟨v, v1, ?_⟩
  have hent := hV.boot.entry
  unfold NtfsFs.fileByNumber NtfsFs.readFile
  rw [R.require_true (by rw [v2.mft.count]; exact hn), R.ok_bind, NtfsFs.getEntry_volume hV hU v2 hn, hraw, NtfsFs.readEntry_zero (by omega), R.ok_bind,
    NtfsFs.readAttributes_zero (by omega)]
  rfl

/-- C62 does not hold in full: a record that is marked as bad, with update sequence numbers, is refused instead of being said to be bad. -/
theorem C62_violated_bad (U : List Byte) (V : Volume) (hV : IsVolume U V) (hU : U.length < 2 ^ 63) (n : Nat) (hn : n < (mftBytes U V.mft).length / entrySize U)
    (raw : List Byte) (hraw : raw = Spec.bytesAt (mftBytes U V.mft) (n * entrySize U) (entrySize U)) (hs : raw.take 4 = [0x42#8, 0x41#8, 0x41#8, 0x44#8])
    (hc : 0 < field raw 6 2) : ∃ v, NtfsFs.openVolume U = .ok v ∧ ∀ f, NtfsFs.fileByNumber U v n ≠ .ok f := by
  obtain ⟨v, v1, v2⟩ := NtfsFs.openVolume_ok hV hU
  refine ⟨v, v1, fun f hf => ?_⟩
  obtain ⟨h, attrs, ha⟩ := NtfsFs.fileByNumber_entry hV hU v2 hn hf
  have hent := hV.boot.entry
  have hrl := raw_length hn
  rw [← hraw] at h hrl
  rw [NtfsFs.readEntry_bad hs] at h
  rw [← R.ok.inj h] at ha
  exact NtfsFs.readAttributes_bad (by omega) hs hc attrs ha

example : 2 < (mftBytes NtfsExtendedSample.U NtfsExtendedSample.V.mft).length / entrySize NtfsExtendedSample.U ∧
    Spec.bytesAt (mftBytes NtfsExtendedSample.U NtfsExtendedSample.V.mft) (2 * entrySize NtfsExtendedSample.U) (entrySize NtfsExtendedSample.U) = NtfsExtendedSample.bad ∧
    NtfsExtendedSample.bad.take 4 = [0x42#8, 0x41#8, 0x41#8, 0x44#8] ∧ 0 < field NtfsExtendedSample.bad 6 2 := by
  have : NtfsExtendedSample.V.mft = NtfsExtendedSample.mft := rfl
  rw [this, NtfsExtendedSample.mftBytes_U, NtfsExtendedSample.entry_U]
  exact ⟨by decide +kernel, by decide +kernel, by decide +kernel, by decide +kernel⟩

/-- C62: the times and the flags of a file are those of its standard information. -/
theorem C62_times_partial (U : List Byte) (V : Volume) (hV : IsVolume U V) (hU : U.length < 2 ^ 63) (n : Nat) (as : List Attribute) (h : IsFile U V.mft n as) :
    ∃ v f, NtfsFs.openVolume U = .ok v ∧ NtfsFs.fileByNumber U v n = .ok f ∧
      ((∀ a ∈ as, a.kind ≠ 0x10) → f.creation = none ∧ f.modification = none ∧ f.change = none ∧ f.access = none ∧ f.flags = 0) ∧
      ∀ a ∈ as, a.kind = 0x10 → ∀ data, a.value = .resident data →
        f.creation = some (time (field data 0 8)) ∧ f.modification = some (time (field data 8 8)) ∧ f.change = some (time (field data 16 8)) ∧
        f.access = some (time (field data 24 8)) ∧ f.flags = field data 32 4 := by
  obtain ⟨v, v1, v2⟩ := NtfsFs.openVolume_ok hV hU
  obtain ⟨f, f1, -, f2⟩ := NtfsFs.fileByNumber_ok hV hU v2 h
  refine ⟨v, f, v1, f1, fun hno => ?_, fun a ha hk data hd => ?_⟩
  · have := f2.attrs.noStandard hno
    simp [NtfsFs.File.creation, NtfsFs.File.modification, NtfsFs.File.change, NtfsFs.File.access, NtfsFs.File.flags, this]
  · have := f2.attrs.standard a ha hk data hd
    simp [NtfsFs.File.creation, NtfsFs.File.modification, NtfsFs.File.change, NtfsFs.File.access, NtfsFs.File.flags, this, NtfsFs.standardOf]

example : IsFile NtfsSample.U NtfsSample.V.mft 7 NtfsSample.attrs7 ∧ NtfsSample.standard 200 0x420 ∈ NtfsSample.attrs7 ∧
    ∃ data, (NtfsSample.standard 200 0x420).value = .resident data ∧ time (field data 0 8) = some 200 ∧ field data 32 4 = 0x420 :=
  ⟨NtfsSample.file7, by decide +kernel, _, rfl, by decide +kernel, by decide +kernel⟩

/-- C62: a file is a symbolic link or a junction if it has such a reparse point. The target of a link is the name to be used. -/
theorem C62_link_partial (U : List Byte) (V : Volume) (hV : IsVolume U V) (hU : U.length < 2 ^ 63) (n : Nat) (as : List Attribute) (h : IsFile U V.mft n as) :
    ∃ v f, NtfsFs.openVolume U = .ok v ∧ NtfsFs.fileByNumber U v n = .ok f ∧
      ((∀ a ∈ as, a.kind ≠ 0xc0) → f.isLink = false ∧ f.isJunction = false ∧ f.target = none) ∧
      ∀ a ∈ as, a.kind = 0xc0 → ∀ data r, a.value = .resident data → ReparseAt data r →
        (f.isLink = true ↔ ∃ s d, r = .link s d) ∧ (f.isJunction = true ↔ r = .junction) ∧ f.target = r.target := by
  obtain ⟨v, v1, v2⟩ := NtfsFs.openVolume_ok hV hU
  obtain ⟨f, f1, -, f2⟩ := NtfsFs.fileByNumber_ok hV hU v2 h
  refine ⟨v, f, v1, f1, fun hno => ?_, fun a ha hk data r hd hr => ?_⟩
  · have := f2.attrs.noReparse hno
    simp [NtfsFs.File.isLink, NtfsFs.File.isJunction, NtfsFs.File.target, this]
  · have := f2.attrs.reparse a ha hk data r hd hr
    cases r <;> simp [NtfsFs.File.isLink, NtfsFs.File.isJunction, NtfsFs.File.target, this, NtfsFs.reparseOf, Reparse.target]

example : ∃ a ∈ NtfsSample.attrs7, a.kind = 0xc0 ∧ ∃ data, a.value = .resident data ∧ ReparseAt data (.link [0x78] [0x58]) :=
  ⟨_, List.mem_cons_of_mem _ List.mem_cons_self, rfl, _, rfl, .link (by decide +kernel) (by decide +kernel)
    ⟨by decide +kernel, by decide +kernel, by decide +kernel, by decide +kernel, by decide +kernel⟩
    ⟨by decide +kernel, by decide +kernel, by decide +kernel, by decide +kernel, by decide +kernel⟩⟩

/-- C62: the size of a file, and the data forks by their index: the names of the data attributes, in the order of the records. -/
theorem C62_forks_partial (U : List Byte) (V : Volume) (hV : IsVolume U V) (hU : U.length < 2 ^ 63) (n : Nat) (as : List Attribute) (h : IsFile U V.mft n as) :
    ∃ v f, NtfsFs.openVolume U = .ok v ∧ NtfsFs.fileByNumber U v n = .ok f ∧
      (named as none 0x80 = [] → f.size = 0) ∧ (∀ flags data, Resident as none 0x80 flags data → f.size = data.length) ∧
      (∀ flags p ps, Clusters as none 0x80 flags p ps → f.size = p.size) ∧
      f.attributeCount = (distinct as).length ∧ f.forkCount = (streamNames as).length ∧
      (∀ i name, (streamNames as)[i]? = some name → f.forkName i = .ok name ∧
        f.forkStream v i = (f.stream v name >>= fun o => match o with | some o => .ok o | none => .err)) ∧
      ∀ i, (streamNames as).length ≤ i → f.forkName i = .err ∧ f.forkStream v i = .err := by
  obtain ⟨v, v1, v2⟩ := NtfsFs.openVolume_ok hV hU
  obtain ⟨f, f1, -, f2⟩ := NtfsFs.fileByNumber_ok hV hU v2 h
  have hi := f2.attrs
  have hforks : f.attrs.dataAttributes.map (fun i => (f.attrs.list[i]?).map NtfsFs.Attr.name) = (streamNames as).map some := by
    rw [hi.forks, streamNames, List.map_map]; rfl
  have hlen : f.attrs.dataAttributes.length = (streamNames as).length := by
    have := congrArg List.length hforks
    simpa using this
  refine ⟨v, f, v1, f1, fun hno => ?_, fun flags data hr => ?_, fun flags p ps hc => ?_, ?_, hlen, fun i name hn => ?_, fun i hl => ?_⟩
  · unfold NtfsFs.File.size; rw [NtfsFs.get_none hi (by decide) hno]
  · obtain ⟨length, e⟩ := NtfsFs.get_resident hi (by decide) hr
    unfold NtfsFs.File.size; rw [e]; rfl
  · obtain ⟨A, e, k⟩ := NtfsFs.get_clusters hi (by decide) hc
    unfold NtfsFs.File.size; rw [e]; exact k.size
  · have := congrArg List.length hi.kinds
    simpa [NtfsFs.File.attributeCount] using this
  · have hk := congrArg (·[i]?) hforks
    simp only [List.getElem?_map, hn, Option.map_some] at hk
    obtain ⟨k, hk1, hk2⟩ := Option.map_eq_some_iff.1 hk
    obtain ⟨A, hA, hA2⟩ := Option.map_eq_some_iff.1 hk2
    have e : f.forkName i = .ok name := by
      unfold NtfsFs.File.forkName
      rw [hk1]
      simp only [Fat.orErr]
      rw [R.ok_bind, hA]
      simp only [Fat.orErr]
      rw [R.ok_bind, hA2]
      rfl
    refine ⟨e, ?_⟩
    unfold NtfsFs.File.forkStream
    rw [e, R.ok_bind]
    cases f.stream v name with
    | ok o => cases o <;> rfl
    | err => rfl
    | panic => rfl
  · have e : f.forkName i = .err := by
      unfold NtfsFs.File.forkName
      rw [List.getElem?_eq_none (by rw [hlen]; exact hl)]
      rfl
    refine ⟨e, ?_⟩
    unfold NtfsFs.File.forkStream
    rw [e, R.err_bind]

example : IsFile NtfsSample.U NtfsSample.V.mft 11 NtfsSample.attrs11 ∧ streamNames NtfsSample.attrs11 = [none, some [0x73]] ∧
    Resident NtfsSample.attrs11 none 0x80 0 [0x68#8, 0x69#8] ∧ streamNames (NtfsSample.attrs8 ++ NtfsSample.attrs9) = [none] ∧
    (distinct (NtfsSample.attrs8 ++ NtfsSample.attrs9)).length = 3 :=
  ⟨NtfsSample.file11, by decide +kernel, by unfold Resident; decide +kernel, by decide +kernel, by decide +kernel⟩

/-- C62: the contents of a file and of its further streams, by name: the bytes in the record, or those of the clusters with zeros after the valid data. Every
sequence of reads and seeks. -/
theorem C62_streams_partial (U : List Byte) (V : Volume) (hV : IsVolume U V) (hU : U.length < 2 ^ 63) (n : Nat) (as : List Attribute) (h : IsFile U V.mft n as)
    (name : Option (List Nat)) (hover : name = none → ¬ Overlaid as) :
    ∃ v f, NtfsFs.openVolume U = .ok v ∧ NtfsFs.fileByNumber U v n = .ok f ∧
      (named as name 0x80 = [] → f.stream v name = .ok none) ∧
      (∀ flags data, flags % 256 = 0 → Resident as name 0x80 flags data → ∀ ops, data.length + seekBudget ops < 2 ^ 63 →
        ∃ o r tr, f.stream v name = .ok (some o) ∧ o.reader U (clusterSize U) = some r ∧ r.size = data.length ∧ Stream.run r ⟨(), 0⟩ ops = .ok tr ∧ tr.map Prod.fst = ops ∧
          Trace true data data.length 0 tr) ∧
      ∀ flags p ps, flags % 256 = 0 → Clusters as name 0x80 flags p ps → InVolume U p ps → ∀ ops, p.size + seekBudget ops < 2 ^ 63 →
        ∃ o r tr, f.stream v name = .ok (some o) ∧ o.reader U (clusterSize U) = some r ∧ Stream.run r ⟨(), 0⟩ ops = .ok tr ∧ tr.map Prod.fst = ops ∧
          Trace true (clusterBytes U p ps) p.size 0 tr := by
  obtain ⟨v, v1, v2⟩ := NtfsFs.openVolume_ok hV hU
  obtain ⟨f, f1, -, f2⟩ := NtfsFs.fileByNumber_ok hV hU v2 h
  have hi := f2.attrs
  have hwof : NtfsFs.wofMethod f.attrs name = none := by
    unfold NtfsFs.wofMethod
    cases hr : f.attrs.reparse with
    | none => rfl
    | some r =>
      cases r with
      | wof method =>
        simp only
        rw [if_neg]
        intro hn
        refine hover hn ?_
        by_cases hno : ∀ a ∈ as, a.kind ≠ 0xc0
        · rw [hi.noReparse hno] at hr; cases hr
        · simp only [not_forall, not_not] at hno
          obtain ⟨a, ha, hk⟩ := hno
          obtain ⟨data, r, hd, hra⟩ := h.sound.reparse a ha hk
          have hrr := hi.reparse a ha hk data r hd hra
          rw [hr] at hrr
          cases r with
          | overlay m => exact ⟨a, ha, data, m, hk, hd, hra⟩
          | junction => cases hrr
          | link => cases hrr
          | other => cases hrr
      | _ => rfl
  refine ⟨v, f, v1, f1, fun hno => ?_, fun flags data hf hr ops hops => ?_, fun flags p ps hf hc hv ops hops => ?_⟩
  · unfold NtfsFs.File.stream NtfsFs.openNamed; rw [NtfsFs.get_none hi (by decide) hno]
  · obtain ⟨length, e⟩ := NtfsFs.get_resident hi (by decide) hr
    obtain ⟨tr, t1, t2, t3⟩ := C08_fake_stream_partial data data.length (Nat.le_refl _) ops hops
    refine ⟨.fake data data.length, FakeDataStream.reader data data.length, tr, ?_, rfl, rfl, t1, t2, ?_⟩
    · unfold NtfsFs.File.stream NtfsFs.openNamed
      rw [e]
      simp only
      rw [hwof]
      simp only
      unfold NtfsFs.openData
      rw [if_pos (by simp [NtfsFs.Attr.isResident, NtfsFs.attrOf])]
      rfl
    · simpa [zeroExtended] using t3
  · obtain ⟨A, e, k⟩ := NtfsFs.get_clusters hi (by decide) hc
    obtain ⟨s, tr, s1, s2, s3, s4⟩ := NtfsFs.clusters_stream hV.boot hU k hf hc.2.2.2 hv ops hops
    refine ⟨.blocks s, Ntfs.stream U (clusterSize U) s, tr, ?_, rfl, s2, s3, s4⟩
    unfold NtfsFs.File.stream NtfsFs.openNamed
    rw [e]
    simp only
    rw [hwof]
    simp only
    unfold NtfsFs.openData
    have h1 : A.isResident = false := by simp [NtfsFs.Attr.isResident, k.nonResident]
    have h2 : A.isCompressed = false := by
      have h255 : flags &&& 0xff = flags % 256 := Nat.and_two_pow_sub_one_eq_mod flags 8
      simp [NtfsFs.Attr.isCompressed, k.flags, h255, hf]
    rw [h1, h2, v2.mft.cluster, s1]
    rfl

/-- The contents of file 8 of the sample are in two clusters that are described in two records: "b" 512 times, "a" 88 times, and 100 zeros. -/
example : Clusters (NtfsSample.attrs8 ++ NtfsSample.attrs9) none 0x80 0 NtfsSample.pieceF [NtfsSample.pieceG] ∧
    InVolume NtfsSample.U NtfsSample.pieceF [NtfsSample.pieceG] ∧ ¬ Overlaid (NtfsSample.attrs8 ++ NtfsSample.attrs9) ∧
    clusterBytes NtfsSample.U NtfsSample.pieceF [NtfsSample.pieceG] = List.replicate 512 0x62#8 ++ (List.replicate 88 0x61#8 ++ List.replicate 100 0#8) :=
  ⟨⟨by decide +kernel, rfl, by decide, rfl, Or.inr rfl, rfl, Or.inr rfl, trivial⟩,
    NtfsSample.inVolume (by decide) (by decide) (by decide) (by decide) (by decide) (by decide),
    fun ⟨a, ha, _, _, hk, _⟩ => absurd hk ((by decide +kernel : ∀ a ∈ NtfsSample.attrs8 ++ NtfsSample.attrs9, a.kind ≠ 0xc0) a ha), by decide +kernel⟩

/-! ## C63 -/

/-- What a file entry says that was found by an entry of a directory. -/
def FoundBy (e : DirectoryEntry) (x : NtfsFs.FileEntry) : Prop := x.reference = e.reference ∧ x.name = some e.name ∧ x.parent = some e.parent

theorem foundBy (f : NtfsFs.File) (e : DirectoryEntry) : FoundBy e ⟨f, some (NtfsFs.dirOf e)⟩ := ⟨rfl, rfl, rfl⟩

/-- C63: looking up a name in a directory. -/
theorem C63_lookup_partial (U : List Byte) (V : Volume) (hV : IsVolume U V) (hU : U.length < 2 ^ 63) (n : Nat) (as : List Attribute) (h : IsFile U V.mft n as)
    (fold : List Nat → List Nat) (es : List DirectoryEntry) (hd : IsDirectory U V.upper as fold es) (name : List Nat) (hname : ∀ c ∈ name, c < 65536) :
    ∃ v f, NtfsFs.openVolume U = .ok v ∧ NtfsFs.fileByNumber U v n = .ok f ∧
      (lookup fold es name = none → NtfsFs.subByName U v f name = .ok none) ∧
      ∀ e, lookup fold es name = some e → ∀ as', IsFile U V.mft (e.reference % 2 ^ 48) as' →
        ∃ x, NtfsFs.subByName U v f name = .ok (some x) ∧ NtfsFs.fileByNumber U v (e.reference % 2 ^ 48) = .ok x.file ∧ FoundBy e x := by
  obtain ⟨v, v1, v2⟩ := NtfsFs.openVolume_ok hV hU
  obtain ⟨f, f1, -, f2⟩ := NtfsFs.fileByNumber_ok hV hU v2 h
  obtain ⟨h1, h2⟩ := NtfsFs.subByName_ok hV hU v2 f2 h.sound hd name hname
  refine ⟨v, f, v1, f1, h1, fun e he as' hf' => ?_⟩
  obtain ⟨f', g1, g2, -⟩ := NtfsFs.fileByNumber_ok hV hU v2 hf'
  refine ⟨⟨f', some (NtfsFs.dirOf e)⟩, ?_, g1, foundBy f' e⟩
  rw [h2 e he, g2]
  rfl

/-- "FILE" is found in the root directory of the sample, in spite of its case, and "y" is not. -/
example : IsDirectory NtfsSample.U NtfsSample.V.upper NtfsSample.attrs5 (List.map (upperCase NtfsSample.upperTable)) NtfsSample.rootEntries ∧
    lookup (List.map (upperCase NtfsSample.upperTable)) NtfsSample.rootEntries [0x46, 0x49, 0x4c, 0x45] = some NtfsSample.fileF ∧
    NtfsSample.fileF.name = [0x46, 0x69, 0x6c, 0x65] ∧
    lookup (List.map (upperCase NtfsSample.upperTable)) NtfsSample.rootEntries [0x79] = none :=
  ⟨NtfsSample.directory5, NtfsSample.lookup_file, by decide +kernel, NtfsSample.lookup_y⟩

/-- C63: the entries of a directory by their index. -/
theorem C63_list_partial (U : List Byte) (V : Volume) (hV : IsVolume U V) (hU : U.length < 2 ^ 63) (n : Nat) (as : List Attribute) (h : IsFile U V.mft n as)
    (fold : List Nat → List Nat) (es : List DirectoryEntry) (hd : IsDirectory U V.upper as fold es) (hdos : DosNames es) :
    ∃ v f, NtfsFs.openVolume U = .ok v ∧ NtfsFs.fileByNumber U v n = .ok f ∧ f.isDirectory = true ∧ NtfsFs.subCount U v f = .ok (listed es).length ∧
      (∀ i e, (listed es)[i]? = some e → ∀ as', IsFile U V.mft (e.reference % 2 ^ 48) as' →
        ∃ x, NtfsFs.subByIndex U v f i = .ok x ∧ NtfsFs.fileByNumber U v (e.reference % 2 ^ 48) = .ok x.file ∧ FoundBy e x) ∧
      ∀ i, (listed es).length ≤ i → NtfsFs.subByIndex U v f i = .err := by
  obtain ⟨v, v1, v2⟩ := NtfsFs.openVolume_ok hV hU
  obtain ⟨f, f1, -, f2⟩ := NtfsFs.fileByNumber_ok hV hU v2 h
  obtain ⟨hidx, hsub⟩ := NtfsFs.subEntries_ok hV hU v2 f2 h.sound hd hdos
  have hentries : (NtfsFs.addAll ⟨[], []⟩ es).entries = (listed es).map NtfsFs.dirOf := by simp [NtfsFs.addAll]
  refine ⟨v, f, v1, f1, hidx, ?_, fun i e he as' hf' => ?_, fun i hi => ?_⟩
  · unfold NtfsFs.subCount
    rw [if_neg (by rw [hidx]; decide), hsub, R.ok_bind, hentries, List.length_map]
    rfl
  · obtain ⟨f', g1, g2, -⟩ := NtfsFs.fileByNumber_ok hV hU v2 hf'
    refine ⟨⟨f', some (NtfsFs.dirOf e)⟩, ?_, g1, foundBy f' e⟩
    unfold NtfsFs.subByIndex NtfsFs.DirEntries.getByIndex
    rw [hsub, R.ok_bind, hentries, List.getElem?_map, he]
    simp only [Option.map_some, Fat.orErr]
    rw [R.ok_bind]
    have hshort : (NtfsFs.dirOf e).short.isSome = false := rfl
    rw [if_neg (by rw [hshort]; simp), R.pure_eq, R.ok_bind]
    show (NtfsFs.readFile U v (e.reference % 2 ^ 48) >>= _) = _
    rw [g2]
    rfl
  · unfold NtfsFs.subByIndex NtfsFs.DirEntries.getByIndex
    rw [hsub, R.ok_bind, hentries, List.getElem?_eq_none (by rw [List.length_map]; exact hi)]
    rfl

example : DosNames NtfsSample.rootEntries ∧ listed NtfsSample.rootEntries = [NtfsSample.fileA, NtfsSample.fileF, NtfsSample.fileX] :=
  ⟨by unfold DosNames; decide +kernel, by decide +kernel⟩

/-- C63: a file that is not a directory has no entries. -/
theorem C63_file_partial (U : List Byte) (V : Volume) (hV : IsVolume U V) (hU : U.length < 2 ^ 63) (n : Nat) (as : List Attribute) (h : IsFile U V.mft n as)
    (hd : NotDirectory as) :
    ∃ v f, NtfsFs.openVolume U = .ok v ∧ NtfsFs.fileByNumber U v n = .ok f ∧ f.isDirectory = false ∧ NtfsFs.subCount U v f = .ok 0 ∧
      (∀ name, NtfsFs.subByName U v f name = .ok none) ∧ ∀ i, NtfsFs.subByIndex U v f i = .err := by
  obtain ⟨v, v1, v2⟩ := NtfsFs.openVolume_ok hV hU
  obtain ⟨f, f1, -, f2⟩ := NtfsFs.fileByNumber_ok hV hU v2 h
  have hidx : f.hasIndex = false := by
    cases hc : f.hasIndex with
    | false => rfl
    | true => obtain ⟨a, ha, e⟩ := f2.index.1 hc; exact absurd e (hd a ha)
  refine ⟨v, f, v1, f1, hidx, ?_, fun name => NtfsFs.subByName_file f2 hd name, fun i => ?_⟩
  · unfold NtfsFs.subCount; rw [if_pos hidx]
  · unfold NtfsFs.subByIndex NtfsFs.subEntries
    rw [R.require_false (by rw [hidx]; decide), R.err_bind, R.err_bind]

example : IsFile NtfsSample.U NtfsSample.V.mft 11 NtfsSample.attrs11 ∧ NotDirectory NtfsSample.attrs11 :=
  ⟨NtfsSample.file11, by unfold NotDirectory; decide +kernel⟩

/-- C63: what is at a path, which begins with an empty component. -/
theorem C63_path_partial (U : List Byte) (V : Volume) (hV : IsVolume U V) (hU : U.length < 2 ^ 63) (names : List (List Nat))
    (hn : ∀ name ∈ names, ∀ c ∈ name, c < 65536) (r : Option (Nat × Option DirectoryEntry)) (h : Path U V 5 none names r) :
    ∃ v, NtfsFs.openVolume U = .ok v ∧ NtfsFs.fileByPath U v [] = .ok none ∧ (∀ first rest, first ≠ [] → NtfsFs.fileByPath U v (first :: rest) = .ok none) ∧
      (r = none → NtfsFs.fileByPath U v ([] :: names) = .ok none) ∧
      ∀ m e, r = some (m, e) → ∃ x, NtfsFs.fileByPath U v ([] :: names) = .ok (some x) ∧ NtfsFs.fileByNumber U v m = .ok x.file ∧ ∀ e', e = some e' → FoundBy e' x := by
  obtain ⟨v, v1, v2⟩ := NtfsFs.openVolume_ok hV hU
  have hfile : ∃ as', IsFile U V.mft 5 as' := by cases h <;> exact ⟨_, ‹_›⟩
  obtain ⟨as', hf'⟩ := hfile
  obtain ⟨f, f1, f2, -⟩ := NtfsFs.fileByNumber_ok hV hU v2 hf'
  obtain ⟨w1, w2⟩ := NtfsFs.walk_ok hV hU v2 h hn f2
  have hp : NtfsFs.fileByPath U v ([] :: names) = NtfsFs.walk U v names ⟨f, none⟩ := by
    unfold NtfsFs.fileByPath
    simp only
    rw [if_neg (by simp), f1, R.ok_bind]
  refine ⟨v, v1, rfl, fun first rest hne => ?_, fun hr => ?_, fun m e hr => ?_⟩
  · unfold NtfsFs.fileByPath
    simp only
    rw [if_pos (by simpa using hne)]
  · rw [hp]; exact w1 hr
  · obtain ⟨f', g1, g2⟩ := w2 m e hr
    exact ⟨⟨f', e.map NtfsFs.dirOf⟩, by rw [hp]; exact g2, g1, fun e' he => by rw [he]; exact foundBy f' e'⟩

/-- The path /FILE of the sample is file 8; nothing is at /x/a, because x is not a directory. -/
example : Path NtfsSample.U NtfsSample.V 5 none [[0x46, 0x49, 0x4c, 0x45]] (some (8, some NtfsSample.fileF)) ∧
    Path NtfsSample.U NtfsSample.V 5 none [[0x78], [0x61]] none := by
  have h8 : NtfsSample.fileF.reference % 2 ^ 48 = 8 := by decide
  have h11 : NtfsSample.fileX.reference % 2 ^ 48 = 11 := by decide
  refine ⟨.step NtfsSample.file5 NtfsSample.directory5 NtfsSample.lookup_file ?_, .step NtfsSample.file5 NtfsSample.directory5 NtfsSample.lookup_x ?_⟩
  · rw [h8]; exact .here NtfsSample.file8
  · rw [h11]; exact .file NtfsSample.file11 (by unfold NotDirectory; decide +kernel)

end Keramics.Props
