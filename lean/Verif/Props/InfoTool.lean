import Verif.Model.InfoTool
import Verif.Spec.InfoTool
import Verif.Props.Volumes
import Verif.Props.Types
import Verif.Props.Utf8
import Verif.Props.VfsScanner
import Verif.Spec.Formats

/-!
# C80: what the info tool tells about volume systems
-/

namespace Keramics.Props
open Spec InfoTool
open Keramics.HashTool (Out after printed)

/-! ## Numbers -/

private theorem dec_eq (n : Nat) : VfsParts.decimal n = decimalText n := VfsScanner.decimal_eq n

private theorem lowerHex_toNat : ∀ d, d < 16 → (lowerHex d).toNat = (Nat.digitChar d).toNat := by decide

private theorem hexDigits_zero : ∀ n, (hexDigits n 0).map BitVec.toNat = List.replicate n 0x30
  | 0 => rfl
  | n + 1 => by
    rw [hexDigits, List.map_append, Nat.zero_div, hexDigits_zero n, List.replicate_succ']
    rfl

private theorem hexDigits_eq : ∀ (n v : Nat), (Nat.toDigits 16 v).length ≤ n →
    (hexDigits n v).map BitVec.toNat = List.replicate (n - (Nat.toDigits 16 v).length) 0x30 ++ (Nat.toDigits 16 v).map Char.toNat
  | 0, v, h => by
    have : 0 < (Nat.toDigits 16 v).length := Nat.length_toDigits_pos
    omega
  | n + 1, v, h => by
    rw [hexDigits, List.map_append]
    by_cases hv : v < 16
    · rw [Nat.toDigits_of_lt_base hv, Nat.div_eq_of_lt hv, hexDigits_zero, Nat.mod_eq_of_lt hv]
      simp [lowerHex_toNat v hv]
    · rw [Nat.toDigits_of_base_le (by omega) (by omega)] at h ⊢
      rw [List.length_append, List.length_singleton] at h
      rw [hexDigits_eq n (v / 16) (by omega), List.length_append, List.length_singleton, List.map_append, Nat.add_sub_add_right, List.append_assoc]
      simp [lowerHex_toNat (v % 16) (Nat.mod_lt _ (by omega))]

theorem hex_number (w v : Nat) : Display.hex w v = hexNumber w v := by
  unfold Display.hex formatHex hexNumber
  rw [hexDigits_eq _ _ (Nat.le_max_right _ _)]
  simp only [List.length_map]
  congr 2
  omega

private theorem offset_eq (offset : Nat) : offsetLine offset = offsetText offset := by
  unfold offsetLine line offsetText
  rw [dec_eq, hex_number]
  simp only [List.append_assoc]

/-! ## Sizes -/

private theorem roundEven_near {a b : Nat} (hb : 0 < b) : 2 * roundEven a b * b ≤ 2 * a + b ∧ 2 * a ≤ 2 * roundEven a b * b + b := by
  have h := Nat.div_add_mod a b
  have hr := Nat.mod_lt a hb
  unfold roundEven
  generalize a / b = q at *
  generalize a % b = r at *
  have e1 : 2 * q * b = 2 * (b * q) := by rw [Nat.mul_assoc, Nat.mul_comm q b]
  have e2 : 2 * (q + 1) * b = 2 * (b * q) + 2 * b := by rw [Nat.mul_add, Nat.add_mul, e1]
  split
  · omega
  · split
    · omega
    · rcases Nat.mod_two_eq_zero_or_one q with hq | hq <;> simp only [hq, Nat.add_zero] <;> omega

private theorem toF64_near {v : Nat} (hv : v < 2 ^ 60) :
    toF64 v ≤ v + (if v < 2 ^ 53 then 0 else 64) ∧ v ≤ toF64 v + (if v < 2 ^ 53 then 0 else 64) := by
  unfold toF64
  split
  · omega
  · rename_i h
    have hl : v.log2 < 60 := (Nat.log2_lt (by omega)).2 hv
    obtain ⟨h1, h2⟩ := roundEven_near (a := v) (b := 2 ^ (v.log2 - 52)) (Nat.two_pow_pos _)
    have hp : 2 ^ (v.log2 - 52) ≤ 2 ^ 7 := Nat.pow_le_pow_right (by omega) (by omega)
    rw [Nat.mul_assoc] at h1 h2
    omega

private theorem sizeLoop_eq {value : Nat} (hv : value < 2 ^ 60) : ∀ (fuel k : Nat), k < 6 → 6 < fuel + k → 1024 ^ k ≤ value ∨ k = 0 → 
    ∃ j, j < 6 ∧ (1024 ^ j ≤ value ∨ j = 0) ∧ value < 1024 ^ (j + 1) ∧ k ≤ j ∧ sizeLoop value fuel (1024 ^ k) (1024 ^ (k + 1)) k = .ok (1024 ^ j, j)
  | 0, k, hk, hf, _ => by omega
  | fuel + 1, k, hk, hf, h => by
    rw [sizeLoop]
    by_cases hn : 1024 ^ (k + 1) ≤ value
    · rw [if_pos hn]
      have hk6 : k + 1 < 6 := by
        by_contra hc
        have : k = 5 := by omega
        subst this
        have : (1024 : Nat) ^ (5 + 1) = 2 ^ 60 := by decide
        omega
      have hm : 1024 ^ (k + 1) * 1024 = 1024 ^ (k + 1 + 1) := (Nat.pow_succ 1024 (k + 1)).symm
      have hlt : 1024 ^ (k + 1) * 1024 < 2 ^ 64 := by
        have : 1024 ^ (k + 1) * 1024 ≤ 1024 ^ 6 := by
          rw [hm]
          exact Nat.pow_le_pow_right (by omega) (by omega)
        have e : (1024 : Nat) ^ 6 = 2 ^ 60 := by decide
        omega
      obtain ⟨j, h1, h2, h3, h4, h5⟩ := sizeLoop_eq hv fuel (k + 1) hk6 (by omega) (Or.inl hn)
      refine ⟨j, h1, h2, h3, by omega, ?_⟩
      rw [R.mulU_ok hlt, R.ok_bind, hm]
      exact h5
    · rw [if_neg hn]
      exact ⟨k, hk, h, by omega, Nat.le_refl _, rfl⟩

private theorem unit_of : ∀ j, j < 6 → 0 < j → ∃ unit name, units[j]? = some unit ∧ (j, name) ∈ binaryUnits ∧ codePoints unit ++ codePoints "iB" = codePoints name := by
  intro j hj h0
  have : j = 1 ∨ j = 2 ∨ j = 3 ∨ j = 4 ∨ j = 5 := by omega
  rcases this with rfl | rfl | rfl | rfl | rfl
  · exact ⟨"K", "KiB", rfl, by simp [binaryUnits], by decide⟩
  · exact ⟨"M", "MiB", rfl, by simp [binaryUnits], by decide⟩
  · exact ⟨"G", "GiB", rfl, by simp [binaryUnits], by decide⟩
  · exact ⟨"T", "TiB", rfl, by simp [binaryUnits], by decide⟩
  · exact ⟨"P", "PiB", rfl, by simp [binaryUnits], by decide⟩

/-- C80, in part: the size of a partition is given in bytes, and from 1 KiB on also in tenths of the largest unit that is not larger than
it, rounded to the next tenth. Missing: sizes of 1 EiB and more (`C80_violated_large`). -/
theorem C80_size_partial (small : String) (size : Nat) (hsize : size < 2 ^ 60) : ∃ line, sizeLine small size = .ok line ∧ SizeLine small size line := by
  unfold sizeLine SizeLine SizeText
  by_cases h : size < 1024
  · rw [if_pos h]
    simp only [if_pos h]
    exact ⟨_, rfl, _, rfl, by rw [dec_eq, List.append_assoc]⟩
  · rw [if_neg h]
    simp only [if_neg h]
    obtain ⟨j, h1, h2, h3, -, h5⟩ := sizeLoop_eq hsize 8 0 (by omega) (by omega) (Or.inr rfl)
    have hj : 0 < j := by
      by_contra hc
      have : j = 0 := by omega
      subst this
      omega
    have h2 : 1024 ^ j ≤ size := by omega
    obtain ⟨unit, name, hu, hm, he⟩ := unit_of j h1 hj
    have hb : bytesize size = .ok (VfsParts.decimal (tenths size (1024 ^ j) / 10) ++ codePoints "." ++ VfsParts.decimal (tenths size (1024 ^ j) % 10) ++
        codePoints " " ++ codePoints unit ++ codePoints "iB") := by
      unfold bytesize
      rw [show (1 : Nat) = 1024 ^ 0 from rfl, show sizeLoop size 8 (1024 ^ 0) 1024 0 = sizeLoop size 8 (1024 ^ 0) (1024 ^ (0 + 1)) 0 from rfl, h5, R.ok_bind]
      simp only
      rw [if_pos hj, hu]
      rfl
    rw [hb, R.ok_bind]
    refine ⟨_, rfl, _, ⟨j, name, tenths size (1024 ^ j), hm, h2, h3, ?_, rfl⟩, ?_⟩
    · have hp : 0 < 1024 ^ j := Nat.pow_pos (by omega)
      obtain ⟨n1, n2⟩ := roundEven_near (a := 10 * toF64 size) hp
      obtain ⟨f1, f2⟩ := toF64_near hsize
      unfold Near tenths
      generalize roundEven (10 * toF64 size) (1024 ^ j) = t at *
      rw [Nat.add_mul, Nat.one_mul]
      split
      · rename_i hs
        rw [if_pos hs] at f1 f2
        omega
      · rename_i hs
        rw [if_neg hs] at f1 f2
        omega
    · rw [← he, dec_eq, dec_eq, dec_eq]
      simp only [List.append_assoc]

/-- The hypothesis is met: 1.5 KiB, and 1.25 MiB, which is between two tenths; the last size below 1 MiB is shown as 1024.0 KiB. -/
example : sizeLine " bytes" 1536 = .ok (codePoints "    Size\t\t\t\t: 1.5 KiB (1536 bytes)") ∧
    sizeLine " bytes" 1310720 = .ok (codePoints "    Size\t\t\t\t: 1.2 MiB (1310720 bytes)") ∧
    sizeLine " bytes" 1048575 = .ok (codePoints "    Size\t\t\t\t: 1024.0 KiB (1048575 bytes)") ∧
    sizeLine " bytes" 512 = .ok (codePoints "    Size\t\t\t\t: 512 bytes") := by decide +kernel

private theorem sizeLoop_panic {value : Nat} (hv : 2 ^ 60 ≤ value) : ∀ (fuel k : Nat), k ≤ 5 → 5 < fuel + k → 
    sizeLoop value fuel (1024 ^ k) (1024 ^ (k + 1)) k = .panic
  | 0, k, _, _ => rfl
  | fuel + 1, k, hk, hf => by
    have hn : 1024 ^ (k + 1) ≤ value := by
      have h1 : 1024 ^ (k + 1) ≤ 1024 ^ 6 := Nat.pow_le_pow_right (by omega) (by omega)
      have e : (1024 : Nat) ^ 6 = 2 ^ 60 := by decide
      omega
    rw [sizeLoop, if_pos hn]
    by_cases h5 : k = 5
    · subst h5
      rfl
    · have hm : 1024 ^ (k + 1) * 1024 = 1024 ^ (k + 1 + 1) := (Nat.pow_succ 1024 (k + 1)).symm
      have hlt : 1024 ^ (k + 1) * 1024 < 2 ^ 64 := by
        have : 1024 ^ (k + 1) * 1024 ≤ 1024 ^ 6 := by
          rw [hm]
          exact Nat.pow_le_pow_right (by omega) (by omega)
        have e : (1024 : Nat) ^ 6 = 2 ^ 60 := by decide
        omega
      rw [R.mulU_ok hlt, R.ok_bind, hm]
      exact sizeLoop_panic hv fuel (k + 1) (by omega) (by omega)

private theorem size_panic (small : String) {size : Nat} (hs : 2 ^ 60 ≤ size) : sizeLine small size = .panic := by
  unfold sizeLine
  rw [if_neg (by omega)]
  have : bytesize size = .panic := by
    unfold bytesize
    rw [show (1 : Nat) = 1024 ^ 0 from rfl, show sizeLoop size 8 (1024 ^ 0) 1024 0 = sizeLoop size 8 (1024 ^ 0) (1024 ^ (0 + 1)) 0 from rfl,
      sizeLoop_panic hs 8 0 (by omega) (by omega)]
    rfl
  rw [this]
  rfl

/-! ## The loop -/

private theorem say_andThen (lines : List (List Nat)) (b : Out) : (say lines).andThen b = (lines ++ b.1, b.2) := rfl

private theorem partitions_ok {one : Nat → Out} {P : Nat → List (List Nat) → Prop} : ∀ (n i : Nat),
    (∀ j, i ≤ j → j < i + n → ∃ lines, one j = (lines, .ok ()) ∧ P j lines) →
    ∃ blocks : List (List (List Nat)), partitions one n i = (blocks.flatten, .ok ()) ∧ blocks.length = n ∧ ∀ j lines, blocks[j]? = some lines → P (i + j) lines
  | 0, i, _ => ⟨[], rfl, rfl, by simp⟩
  | n + 1, i, h => by
    obtain ⟨lines, h1, h2⟩ := h i (Nat.le_refl _) (by omega)
    obtain ⟨blocks, h3, h4, h5⟩ := partitions_ok n (i + 1) fun j hj hl => h j (by omega) (by omega)
    refine ⟨lines :: blocks, ?_, by simp [h4], fun j l hj => ?_⟩
    · rw [partitions, h1, h3]
      rfl
    · cases j with
      | zero =>
        cases hj
        exact h2
      | succ j =>
        have := h5 j l (by simpa using hj)
        rwa [show i + (j + 1) = i + 1 + j by omega]

/-! ## GPT -/

private theorem guid_text {raw : List Byte} (hl : raw.length ≤ 16) {u : Uuid.Uuid} (h : Uuid.fromLeBytes raw = .ok u) : InfoTool.uuidText u = guidText raw := by
  have hl : raw.length = 16 := by
    unfold Uuid.fromLeBytes at h
    obtain ⟨x, -, h⟩ := R.bind_eq_ok.1 h
    obtain ⟨y, hy, -⟩ := R.bind_eq_ok.1 h
    by_contra hc
    unfold u32be at hy
    rw [show R.slice raw 12 (12 + 4) = .panic by unfold R.slice; rw [if_neg (by omega)]] at hy
    cases hy
  have hg : guidBytes (guidBytes raw) = raw ∧ (guidBytes raw).length = 16 := by
    match raw, hl with
    | [b0, b1, b2, b3, b4, b5, b6, b7, b8, b9, b10, b11, b12, b13, b14, b15], _ => exact ⟨rfl, rfl⟩
  have e := C13_le_bytes (guidBytes raw) hg.2
  rw [hg.1, h] at e
  obtain ⟨v, h1, -, h2⟩ := C13_be_bytes (guidBytes raw) hg.2
  rw [h1] at e
  cases e
  unfold InfoTool.uuidText guidText
  rw [h2]

private theorem nil_eq (u : Uuid.Uuid) : (if Uuid.isNil u then (⟨0, 0, 0, 0, 0⟩ : Uuid.Uuid) else u) = u := by
  obtain ⟨a, b, c, d, e⟩ := u
  split
  · rename_i hn
    simp only [Uuid.isNil, Bool.and_eq_true, beq_iff_eq] at hn
    obtain ⟨⟨⟨⟨rfl, rfl⟩, rfl⟩, rfl⟩, rfl⟩ := hn
    rfl
  · rfl

private theorem gpt_disk {volume : List Byte} {set : Nat} {s : Gpt.System} (h : Gpt.readTable volume set = .ok s) :
    Uuid.fromLeBytes (Spec.bytesAt (Spec.Gpt.header volume s.bps) 56 16) = .ok s.disk := by
  unfold Gpt.readTable at h
  obtain ⟨⟨bps, hd⟩, hp, h⟩ := R.bind_eq_ok.1 h
  obtain ⟨bo, _, h⟩ := R.bind_eq_ok.1 h
  obtain ⟨_, _, h⟩ := R.bind_eq_ok.1 h
  obtain ⟨_, h1, h⟩ := R.bind_eq_ok.1 h
  obtain ⟨_, h2, h⟩ := R.bind_eq_ok.1 h
  obtain ⟨off, h3, h⟩ := R.bind_eq_ok.1 h
  obtain ⟨r, h4, h⟩ := R.bind_eq_ok.1 h
  rw [Gpt.crc_ok, R.ok_bind] at h
  obtain ⟨_, h5, h⟩ := R.bind_eq_ok.1 h
  simp only at h
  cases h
  have hf : Gpt.Fields (Spec.Gpt.header volume bps) hd := by
    unfold Gpt.primary at hp
    split at hp
    · obtain ⟨x, hx, he⟩ := R.bind_eq_ok.1 hp
      cases he
      exact ((Gpt.readHeaderAt_good volume set).of_ok hx).2
    · unfold Gpt.detect at hp
      split at hp
      · rename_i x hx
        cases hp
        exact ((Gpt.readHeaderAt_good volume 512).of_ok hx).2
      · unfold Gpt.detect at hp
        split at hp
        · rename_i x hx
          cases hp
          exact ((Gpt.readHeaderAt_good volume 4096).of_ok hx).2
        · cases hp
        · cases hp
      · cases hp
  rw [show (⟨bps, if Uuid.isNil hd.disk then ⟨0, 0, 0, 0, 0⟩ else hd.disk, r.2⟩ : Gpt.System).disk = hd.disk from nil_eq hd.disk]
  exact hf.2.2.2.2.2.2.2

private theorem gpt_entry {volume : List Byte} {s : Gpt.System} (hv : volume.length < 2 ^ 64) (h : Gpt.readTable volume 0 = .ok s) {i : Nat}
    (hi : i < s.entries.length) : ∃ (e : Gpt.Entry) (p : Nat × List Byte × List Byte × Nat × Nat),
      s.entries[i]? = some e ∧ (Spec.Gpt.partitions volume s.bps)[i]? = some p ∧ InfoTool.uuidText e.typeId = guidText p.2.1 ∧
      InfoTool.uuidText e.id = guidText p.2.2.1 ∧ e.start = p.2.2.2.1 ∧ e.end_ = p.2.2.2.2 ∧ e.start ≤ e.end_ := by
  obtain ⟨-, -, -, -, -, h6, h7⟩ := C44_accepted_partial volume hv 0 s h
  have hlen := h6.length_eq
  have he := List.getElem?_eq_getElem hi
  have hpi := List.getElem?_eq_getElem (show i < (Spec.Gpt.partitions volume s.bps).length by omega)
  have hsame := (List.forall₂_iff_get.1 h6).2 i hi (by omega)
  simp only [List.get_eq_getElem] at hsame
  generalize hpe : (Spec.Gpt.partitions volume s.bps)[i]'(by omega) = p at hpi hsame
  obtain ⟨-, e2, e3, e4, e5⟩ := hsame
  have hmem : p ∈ Spec.Gpt.partitions volume s.bps := hpe ▸ List.getElem_mem _
  unfold Spec.Gpt.partitions at hmem
  obtain ⟨j, -, hj⟩ := List.mem_filterMap.1 hmem
  simp only at hj
  split at hj
  · cases hj
    exact ⟨_, _, he, hpi, guid_text (by simp [Spec.bytesAt]) e2, guid_text (by simp [Spec.bytesAt]) e3, e4, e5, (h7 _ (List.getElem_mem hi)).2⟩
  · cases hj

private theorem gpt_get {s : Gpt.System} {i : Nat} {e : Gpt.Entry} (he : s.entries[i]? = some e) (hle : e.start ≤ e.end_) (h1 : e.start * s.bps < 2 ^ 64)
    (h2 : (e.end_ + 1 - e.start) * s.bps < 2 ^ 64) (h3 : e.end_ + 1 - e.start < 2 ^ 64) :
    Gpt.getPartition s i = .ok ⟨e.start * s.bps, (e.end_ + 1 - e.start) * s.bps⟩ := by
  unfold Gpt.getPartition
  rw [he]
  simp only
  rw [R.mulU_ok h1, R.ok_bind, R.subU_ok hle, R.ok_bind, R.addU_ok (by omega), R.ok_bind, show e.end_ - e.start + 1 = e.end_ + 1 - e.start by omega,
    R.mulU_ok h2, R.ok_bind]
  rfl

/-- C80, in part: for a disk with a GPT that is accepted the tool lists every partition, in the order of the table, with the bytes that it
begins at and has, and its identifiers. Missing: partitions that end behind 1 EiB (`C80_violated_large`). -/
theorem C80_gpt_partial (volume : List Byte) (hv : volume.length < 2 ^ 64) (s : Gpt.System) (h : Gpt.readTable volume 0 = .ok s)
    (hsmall : ∀ p ∈ Spec.Gpt.partitions volume s.bps, (p.2.2.2.2 + 1) * s.bps < 2 ^ 60) :
    ∃ blocks : List (List (List Nat)), gpt volume = (gptHead (Spec.bytesAt (Spec.Gpt.header volume s.bps) 56 16) s.bps (Spec.Gpt.partitions volume s.bps).length ++
        blocks.flatten ++ [[]], .ok ()) ∧
      blocks.length = (Spec.Gpt.partitions volume s.bps).length ∧
      ∀ i lines, blocks[i]? = some lines → ∃ p, (Spec.Gpt.partitions volume s.bps)[i]? = some p ∧ IsGptPartition s.bps i p lines := by
  obtain ⟨-, hb, -, -, -, h6, -⟩ := C44_accepted_partial volume hv 0 s h
  have hb : s.bps = 512 ∨ s.bps = 4096 := hb rfl
  obtain ⟨blocks, h1, h2, h3⟩ := partitions_ok (one := gptPartition s)
    (P := fun i lines => ∃ p, (Spec.Gpt.partitions volume s.bps)[i]? = some p ∧ IsGptPartition s.bps i p lines) s.entries.length 0 (by
    intro i _ hi
    obtain ⟨e, p, e1, e2, e3, e4, e5, e6, e7⟩ := gpt_entry hv h (i := i) (by omega)
    have hs := hsmall p (List.mem_of_getElem? e2)
    rw [← e6] at hs
    have g1 : e.start * s.bps ≤ (e.end_ + 1) * s.bps := Nat.mul_le_mul_right _ (by omega)
    have g2 : (e.end_ + 1 - e.start) * s.bps ≤ (e.end_ + 1) * s.bps := Nat.mul_le_mul_right _ (by omega)
    have g3 : e.end_ + 1 ≤ (e.end_ + 1) * s.bps := Nat.le_mul_of_pos_right _ (by omega)
    obtain ⟨line, l1, l2⟩ := C80_size_partial " bytes" ((e.end_ + 1 - e.start) * s.bps) (by omega)
    refine ⟨_, ?_, p, e2, line, by rw [← e5, ← e6]; exact l2, rfl⟩
    unfold gptPartition
    rw [gpt_get e1 e7 (by omega) (by omega) (by omega)]
    simp only [after]
    rw [e1]
    simp only
    rw [l1, e3, e4, offset_eq, ← e5]
    simp only [InfoTool.line, dec_eq]
    rfl)
  have hn := h6.length_eq
  refine ⟨blocks, ?_, by omega, fun i lines hl => by simpa using h3 i lines hl⟩
  unfold gpt
  rw [h]
  simp only [after]
  rw [h1, guid_text (by simp [Spec.bytesAt]) (gpt_disk h), hn]
  simp only [InfoTool.line, dec_eq]
  rfl

/-! ## MBR -/

private theorem type_line (kind : Nat) : TypeLine mbrTypes kind (typeLine kind) := by
  unfold TypeLine typeLine
  cases hf : mbrTypes.find? (·.1 == kind) with
  | none =>
    refine Or.inr ⟨fun name hm => ?_, by simp [InfoTool.line, hex_number]⟩
    have := List.find?_eq_none.1 hf _ hm
    simp at this
  | some x =>
    obtain ⟨k, name⟩ := x
    have h1 : k = kind := by simpa using List.find?_some hf
    subst h1
    exact Or.inl ⟨name, List.mem_of_find?_eq_some hf, by simp [InfoTool.line, hex_number]⟩

/-- The names of the types of partitions are of different types. -/
theorem C80_types : ∀ kind a b, (kind, a) ∈ mbrTypes → (kind, b) ∈ mbrTypes → a = b := by
  have h : (mbrTypes.map Prod.fst).Nodup := by decide +kernel
  intro kind a b ha hb
  have := List.inj_on_of_nodup_map h ha hb rfl
  simpa using this

private theorem guess_le (size end_ : Nat) : ∀ (l : List Nat) (found : Nat), (∀ b ∈ l, b ≤ 4096) → found ≤ 4096 → Mbr.guessSize size end_ l found ≤ 4096
  | [], _, _, hf => hf
  | b :: l, found, hl, hf => by
    rw [Mbr.guessSize]
    split
    · exact hf
    · exact guess_le size end_ l b (fun x hx => hl x (by simp [hx])) (hl b (by simp))

private theorem mbr_fields {volume : List Byte} (hrec : Spec.Mbr.Record volume 0) (hx : Spec.Mbr.extended volume = []) {s : Mbr.System}
    (h : Mbr.readBoot volume 0 = .ok s) : s.identity = Spec.field volume 440 4 ∧ s.bps ≤ 4096 := by
  obtain ⟨r, hr, -, hr1, hr2⟩ := (Mbr.readRecordAt_good volume 0).exists_ok hrec
  unfold Mbr.readBoot at h
  rw [← bind_assoc, hr, R.ok_bind, hr2] at h
  obtain ⟨bps, hd, h⟩ := R.bind_eq_ok.1 h
  obtain ⟨m, -, h⟩ := R.bind_eq_ok.1 h
  obtain ⟨es, -, h⟩ := R.bind_eq_ok.1 h
  cases h
  have hb : bps = 0 := by
    unfold Mbr.detect at hd
    rw [if_pos rfl] at hd
    have : (((List.range 4).map (Spec.Mbr.entry volume 0)).map Mbr.parse).find? (fun e => decide (e.kind = 5 ∨ e.kind = 15)) = none := by
      rw [List.find?_eq_none]
      intro e he
      obtain ⟨d, hd, rfl⟩ := List.mem_map.1 he
      have := List.filter_eq_nil_iff.1 hx d hd
      show ¬ (decide (Spec.Mbr.kind d = 5 ∨ Spec.Mbr.kind d = 15) = true)
      simpa using this
    rw [this] at hd
    cases hd
    rfl
  subst hb
  refine ⟨?_, ?_⟩
  · show r.1 = _
    rw [hr1]
    unfold Spec.field
    rw [bytesAt_bytesAt (by omega)]
  · show Mbr.guess volume es 0 ≤ 4096
    unfold Mbr.guess
    rw [if_pos rfl]
    split
    · exact guess_le _ _ _ _ (by simp) (by omega)
    · omega

private theorem field_lt4 (d : List Byte) (off : Nat) : Spec.field d off 4 < 2 ^ 32 := by
  unfold Spec.field
  have h1 := leNat_lt (Spec.bytesAt d off 4)
  have h2 : 256 ^ (Spec.bytesAt d off 4).length ≤ 256 ^ 4 := Nat.pow_le_pow_right (by omega) (by simp [Spec.bytesAt])
  have h3 : 256 ^ 4 = 2 ^ 32 := by decide
  omega

private theorem lt64 {a : Nat} (h : a < 2 ^ 60) : a < 2 ^ 64 := by omega

private theorem small_mul {a b : Nat} (ha : a < 2 ^ 32) (hb : b ≤ 4096) : a * b < 2 ^ 60 := by
  have : a * b ≤ 2 ^ 32 * 4096 := Nat.mul_le_mul (by omega) hb
  have e : 2 ^ 32 * 4096 = 2 ^ 44 := by decide
  omega

/-- C80, in part: for a disk with primary partitions the tool lists every partition, in the order of the boot record, with its type and
flags and the bytes that it begins at and has, for the number of bytes per sector that was found. Missing: logical partitions, which are
listed at other offsets (`C80_violated_logical`), and the number of bytes per sector, which is guessed (`C80_violated_sectors`). -/
theorem C80_mbr_partial (volume : List Byte) (hrec : Spec.Mbr.Record volume 0) (hx : Spec.Mbr.extended volume = []) (s : Mbr.System)
    (h : Mbr.readBoot volume 0 = .ok s) (hb : s.bps ≠ 0) :
    ∃ blocks : List (List (List Nat)), mbr volume = (mbrHead (Spec.field volume 440 4) s.bps (Spec.Mbr.primary volume).length ++ blocks.flatten ++ [[]], .ok ()) ∧
      blocks.length = (Spec.Mbr.primary volume).length ∧
      ∀ i lines, blocks[i]? = some lines → ∃ e, (Spec.Mbr.primary volume)[i]? = some e ∧ IsMbrPartition mbrTypes s.bps i e lines := by
  obtain ⟨hid, hle⟩ := mbr_fields hrec hx h
  obtain ⟨s', hs', -, hlist, hidx⟩ := C45_listing_primary volume 0 hrec hx
  rw [h] at hs'
  cases hs'
  have hn : s.entries.length = (Spec.Mbr.primary volume).length := by simpa using congrArg List.length hlist
  obtain ⟨blocks, h1, h2, h3⟩ := partitions_ok (one := mbrPartition s)
    (P := fun i lines => ∃ e, (Spec.Mbr.primary volume)[i]? = some e ∧ IsMbrPartition mbrTypes s.bps i e lines) s.entries.length 0 (by
    intro i _ hi
    have hi : i < s.entries.length := by omega
    have he := List.getElem?_eq_getElem hi
    have hp := List.getElem?_eq_getElem (show i < (Spec.Mbr.primary volume).length by omega)
    generalize hee : s.entries[i] = e at he
    generalize (Spec.Mbr.primary volume)[i]'(by omega) = p at hp
    have hx := hidx e (hee ▸ List.getElem_mem hi)
    have hf := congrArg (fun l => l[i]?) hlist
    simp only [List.getElem?_map, he, hp, Option.map_some, Option.some.injEq, Prod.mk.injEq] at hf
    obtain ⟨f1, f2, f3, f4⟩ := hf
    have b1 := small_mul (field_lt4 p 8) hle
    have b2 := small_mul (field_lt4 p 12) hle
    obtain ⟨line, l1, l2⟩ := C80_size_partial " bytes" (Spec.field p 12 4 * s.bps) b2
    refine ⟨_, ?_, p, hp, typeLine e.kind, line, by rw [← f2]; exact type_line _, l2, rfl⟩
    unfold mbrPartition Mbr.getPartition
    rw [he]
    simp only
    rw [R.require_true hb, R.ok_bind, f3, f4, R.mulU_ok (by omega), R.ok_bind, R.mulU_ok (by omega), R.ok_bind]
    unfold Mbr.place
    rw [if_neg (by omega), R.ok_bind]
    show (say [[]]).andThen ((say [_, _, _]).andThen ((printed (sizeLine " bytes" _)).andThen _)) = _
    rw [l1, offset_eq, hex_number, f1]
    simp only [InfoTool.line, dec_eq]
    rfl)
  refine ⟨blocks, ?_, by omega, fun i lines hl => by simpa using h3 i lines hl⟩
  unfold mbr
  rw [h]
  simp only [after]
  rw [h1, hex_number, hid, hn]
  simp only [InfoTool.line, dec_eq]
  rfl

/-! ## APM -/

theorem bytes_text {bytes : List Byte} {text : List Nat} (h : Utf8Of bytes text) : Path.bytesText bytes = .ok (doubled text) := by
  unfold Path.bytesText
  rw [h.2, C18_decode_encode text h.1]
  simp only
  congr 1
  unfold doubled
  rw [List.flatMap_def, List.flatMap_def]
  congr 1
  refine List.map_congr_left fun c hc => ?_
  have : Display.isChar c = true := by
    have := h.1 c hc
    unfold Spec.Utf8.isScalar at this
    simp only [Display.isChar, Bool.or_eq_true, Bool.and_eq_true, decide_eq_true_eq]
    omega
  rw [if_pos this]

private theorem name_lines {bytes : List Byte} {text : List Nat} (h : Utf8Of bytes text) :
    nameLines bytes = (if text = [] then [] else [codePoints "    Name\t\t\t\t: " ++ doubled text], .ok ()) := by
  unfold nameLines
  by_cases ht : text = []
  · rw [if_pos ht]
    have : bytes = [] := by rw [h.2, ht]; rfl
    rw [this]
    rfl
  · rw [if_neg ht]
    have : bytes.isEmpty = false := by
      rw [h.2]
      cases text with
      | nil => exact absurd rfl ht
      | cons c cs =>
        have hne : Spec.Utf8.encode c ≠ [] := by
          unfold Spec.Utf8.encode
          split
          · simp
          · split
            · simp
            · split <;> simp
        rw [List.flatMap_cons]
        cases he : Spec.Utf8.encode c with
        | nil => exact absurd he hne
        | cons _ _ => rfl
    rw [this, bytes_text h]
    rfl

private theorem fieldBe_lt4 (d : List Byte) (off : Nat) : fieldBe d off 4 < 2 ^ 32 := by
  unfold fieldBe beNat
  have h1 := leNat_lt (Spec.bytesAt d off 4).reverse
  have h2 : 256 ^ (Spec.bytesAt d off 4).reverse.length ≤ 256 ^ 4 := Nat.pow_le_pow_right (by omega) (by simp [Spec.bytesAt])
  have h3 : 256 ^ 4 = 2 ^ 32 := by decide
  omega

/-- C80, in part: for a disk with an Apple partition map the tool lists every partition but the map, in the order of the map, with its
type, name and flags and the bytes that it begins at and has. Missing: names and types that are not UTF-8 (`C80_violated_name`). -/
theorem C80_apm_partial (volume : List Byte) (hv : volume.length < 2 ^ 63) (n : Nat) (h : Spec.Apm.Map volume n) (kind name : Nat → List Nat)
    (hk : ∀ i, 0 < i → i < n → Utf8Of (textBytes (Spec.bytesAt (Spec.Apm.entry volume i) 48 32)) (kind i))
    (hname : ∀ i, 0 < i → i < n → Utf8Of (textBytes (Spec.bytesAt (Spec.Apm.entry volume i) 16 32)) (name i)) :
    ∃ blocks : List (List (List Nat)), apm volume = (apmHead (n - 1) ++ blocks.flatten ++ [[]], .ok ()) ∧ blocks.length = n - 1 ∧
      ∀ i lines, blocks[i]? = some lines → IsApmPartition apmFlags i (Spec.Apm.entry volume (i + 1)) (kind (i + 1)) (name (i + 1)) lines := by
  obtain ⟨es, hes, heq⟩ := C46_listing volume hv n h
  have hn : es.length = n - 1 := by rw [heq]; simp
  obtain ⟨blocks, h1, h2, h3⟩ := partitions_ok (one := apmPartition es)
    (P := fun i lines => IsApmPartition apmFlags i (Spec.Apm.entry volume (i + 1)) (kind (i + 1)) (name (i + 1)) lines) es.length 0 (by
    intro i _ hi
    have hget := congrArg (fun l => l[i]?) heq
    simp only [List.getElem?_map] at hget
    rw [List.getElem?_range' (by omega), Option.map_some] at hget
    simp only [Nat.one_mul, Nat.add_comm 1 i] at hget
    have b1 := small_mul (fieldBe_lt4 (Spec.Apm.entry volume (i + 1)) 8) (show 512 ≤ 4096 by omega)
    have b2 := small_mul (fieldBe_lt4 (Spec.Apm.entry volume (i + 1)) 12) (show 512 ≤ 4096 by omega)
    have k1 := hk (i + 1) (by omega) (by omega)
    have k2 := hname (i + 1) (by omega) (by omega)
    generalize Spec.Apm.entry volume (i + 1) = d at *
    obtain ⟨line, l1, l2⟩ := C80_size_partial "" (fieldBe d 12 4 * 512) b2
    refine ⟨_, ?_, line, l2, rfl⟩
    unfold apmPartition Apm.getPartition
    rw [hget]
    simp only
    rw [R.mulU_ok (lt64 b1), R.ok_bind, R.mulU_ok (lt64 b2), R.ok_bind]
    simp only [after, R.pure_eq]
    unfold textBytes at k1 k2
    rw [bytes_text k1, name_lines k2, R.ok_bind, l1, offset_eq, hex_number]
    unfold flagLines
    simp only [InfoTool.line, dec_eq, hex_number, bne_iff_ne]
    by_cases hnm : name (i + 1) = []
    · simp [hnm, say, HashTool.Out.andThen, printed]
      rfl
    · simp [hnm, say, HashTool.Out.andThen, printed]
      rfl)
  refine ⟨blocks, ?_, by omega, fun i lines hl => by simpa using h3 i lines hl⟩
  unfold apm
  rw [hes]
  simp only [after]
  rw [h1, hn]
  simp only [InfoTool.line, dec_eq]
  have e : codePoints "    Bytes per sector\t\t\t: " ++ (decimalText 512 ++ codePoints " bytes") = codePoints "    Bytes per sector\t\t\t: 512 bytes" := by
    decide +kernel
  rw [e]
  rfl

/-! ## Examples -/

/-- A GPT with partitions that end with some sectors, in a table at sector 2; the stored checksums are 0. -/
private def gpt80 (ends : List Nat) : List Byte :=
  List.replicate 512 0#8 ++ [0x45#8, 0x46#8, 0x49#8, 0x20#8, 0x50#8, 0x41#8, 0x52#8, 0x54#8] ++ leBytes 4 0x10000 ++ leBytes 4 92 ++
    leBytes 8 0 ++ leBytes 8 1 ++ leBytes 8 0 ++ leBytes 8 3 ++ leBytes 8 7 ++ List.replicate 16 5#8 ++ leBytes 8 2 ++ leBytes 4 ends.length ++
    leBytes 4 128 ++ leBytes 4 0 ++ List.replicate 420 0#8 ++
    ends.flatMap fun e => (List.range 32).map (BitVec.ofNat 8) ++ leBytes 8 4 ++ leBytes 8 e ++ List.replicate 80 0#8

/-- The hypotheses are met, and what is printed. -/
example : ∃ s, Gpt.readTable (gpt80 [4, 8]) 0 = .ok s ∧ (∀ p ∈ Spec.Gpt.partitions (gpt80 [4, 8]) s.bps, (p.2.2.2.2 + 1) * s.bps < 2 ^ 60) ∧
    gpt (gpt80 [4, 8]) = (["GUID Partition Table (GPT) information:", "    Disk identifier\t\t\t: 05050505-0505-0505-0505-050505050505",
      "    Bytes per sector\t\t\t: 512 bytes", "    Number of partitions\t\t: 2", "", "Partition: 1",
      "    Identifier\t\t\t\t: 13121110-1514-1716-1819-1a1b1c1d1e1f", "    Type identifier\t\t\t: 03020100-0504-0706-0809-0a0b0c0d0e0f",
      "    Offset\t\t\t\t: 2048 (0x00000800)", "    Size\t\t\t\t: 512 bytes", "", "Partition: 2",
      "    Identifier\t\t\t\t: 13121110-1514-1716-1819-1a1b1c1d1e1f", "    Type identifier\t\t\t: 03020100-0504-0706-0809-0a0b0c0d0e0f",
      "    Offset\t\t\t\t: 2048 (0x00000800)", "    Size\t\t\t\t: 2.5 KiB (2560 bytes)", ""].map codePoints, .ok ()) := by
  have h : ∃ s, Gpt.readTable (gpt80 [4, 8]) 0 = .ok s ∧ s.bps = 512 := by
    have : (match Gpt.readTable (gpt80 [4, 8]) 0 with | .ok s => decide (s.bps = 512) | _ => false) = true := by decide +kernel
    split at this
    · rename_i s hs
      exact ⟨s, hs, by simpa using this⟩
    · cases this
  obtain ⟨s, hs, hb⟩ := h
  refine ⟨s, hs, ?_, by decide +kernel⟩
  rw [hb]
  decide +kernel

/-- C80 does not hold for large partitions: if the first partition has 1 EiB or more the tool panics, and lists no other one. -/
theorem C80_violated_large (volume : List Byte) (hv : volume.length < 2 ^ 64) (s : Gpt.System) (h : Gpt.readTable volume 0 = .ok s)
    (p : Nat × List Byte × List Byte × Nat × Nat) (hp : (Spec.Gpt.partitions volume s.bps)[0]? = some p) (hend : (p.2.2.2.2 + 1) * s.bps < 2 ^ 64)
    (hlarge : 2 ^ 60 ≤ (p.2.2.2.2 + 1 - p.2.2.2.1) * s.bps) : ∃ lines, lines.length = 9 ∧ gpt volume = (lines, .panic) := by
  obtain ⟨-, hb, -, -, -, h6, -⟩ := C44_accepted_partial volume hv 0 s h
  have hb : s.bps = 512 ∨ s.bps = 4096 := hb rfl
  have hn := h6.length_eq
  have h0 := (List.getElem?_eq_some_iff.1 hp).1
  obtain ⟨e, q, e1, e2, -, -, e5, e6, e7⟩ := gpt_entry hv h (i := 0) (by omega)
  rw [hp] at e2
  cases e2
  rw [← e6] at hend
  rw [← e5, ← e6] at hlarge
  have g1 : e.start * s.bps ≤ (e.end_ + 1) * s.bps := Nat.mul_le_mul_right _ (by omega)
  have g2 : (e.end_ + 1 - e.start) * s.bps ≤ (e.end_ + 1) * s.bps := Nat.mul_le_mul_right _ (by omega)
  have g3 : e.end_ + 1 ≤ (e.end_ + 1) * s.bps := Nat.le_mul_of_pos_right _ (by omega)
  have one : ∃ lines, lines.length = 5 ∧ gptPartition s 0 = (lines, .panic) := by
    unfold gptPartition
    rw [gpt_get e1 e7 (by omega) (by omega) (by omega)]
    simp only [after]
    rw [e1]
    simp only
    rw [size_panic _ hlarge]
    exact ⟨_, rfl, rfl⟩
  obtain ⟨lines, hl, one⟩ := one
  unfold gpt
  rw [h]
  simp only [after]
  obtain ⟨n, hn'⟩ : ∃ n, s.entries.length = n + 1 := ⟨s.entries.length - 1, by omega⟩
  rw [hn', partitions, one]
  exact ⟨_, by simp [hl, Out.andThen, say], rfl⟩

/-- The hypotheses are met by a table of a partition of 1 EiB and another one. -/
example : ∃ s p, Gpt.readTable (gpt80 [2 ^ 51 + 3, 8]) 0 = .ok s ∧ (Spec.Gpt.partitions (gpt80 [2 ^ 51 + 3, 8]) s.bps)[0]? = some p ∧
    (p.2.2.2.2 + 1) * s.bps < 2 ^ 64 ∧ 2 ^ 60 ≤ (p.2.2.2.2 + 1 - p.2.2.2.1) * s.bps := by
  have h : ∃ s, Gpt.readTable (gpt80 [2 ^ 51 + 3, 8]) 0 = .ok s ∧ s.bps = 512 := by
    have : (match Gpt.readTable (gpt80 [2 ^ 51 + 3, 8]) 0 with | .ok s => decide (s.bps = 512) | _ => false) = true := by decide +kernel
    split at this
    · rename_i s hs
      exact ⟨s, hs, by simpa using this⟩
    · cases this
  obtain ⟨s, hs, hb⟩ := h
  refine ⟨s, (0, (List.range 16).map (BitVec.ofNat 8), (List.range' 16 16).map (BitVec.ofNat 8), 4, 2 ^ 51 + 3), hs, ?_, ?_, ?_⟩
  · rw [hb]
    decide +kernel
  · rw [hb]
    decide
  · rw [hb]
    decide

/-- The hypotheses of `C80_mbr_partial` are met, and what is printed: one partition of type 7 in the second of two sectors. -/
example : let volume := List.replicate 440 0#8 ++ leBytes 4 0xabc ++ leBytes 2 0 ++ ([0x80#8, 0#8, 0#8, 0#8, 7#8, 0#8, 0#8, 0#8] ++ leBytes 4 1 ++ leBytes 4 1) ++
      List.replicate 48 0#8 ++ [0x55#8, 0xaa#8] ++ List.replicate 512 0#8
    Spec.Mbr.Record volume 0 ∧ Spec.Mbr.extended volume = [] ∧ (∃ s, Mbr.readBoot volume 0 = .ok s ∧ s.bps = 512) ∧
    mbr volume = (["Master Boot Record (MBR) information:", "    Disk identity\t\t\t: 0xabc", "    Bytes per sector\t\t\t: 512 bytes",
      "    Number of partitions\t\t: 1", "", "Partition: 1", "    Type\t\t\t\t: 0x07 (HPFS/NTFS)", "    Offset\t\t\t\t: 512 (0x00000200)",
      "    Size\t\t\t\t: 512 bytes", "    Flags\t\t\t\t: 0x80", ""].map codePoints, .ok ()) := by
  refine ⟨⟨by decide +kernel, by decide +kernel⟩, by decide +kernel, ⟨⟨512, 0, 0xabc, [⟨0, 0x80, 7, 1, 1⟩]⟩, by decide +kernel, rfl⟩, by decide +kernel⟩

/-- C80 does not hold for logical partitions: the second of a disk is in the sector after its extended boot record, at 1536, and is listed
at 1024. -/
theorem C80_violated_logical : ∃ volume lines, Spec.Mbr.Record volume 0 ∧ Spec.Mbr.Chain volume 512 512 512 [512, 1024] ∧
    (Spec.Mbr.locations volume 512 [512, 1024])[2]? = some (1536, 512) ∧ mbr volume = (lines, .ok ()) ∧
    lines.drop 17 = ["Partition: 3", "    Type\t\t\t\t: 0x07 (HPFS/NTFS)", "    Offset\t\t\t\t: 1024 (0x00000400)", "    Size\t\t\t\t: 512 bytes",
      "    Flags\t\t\t\t: 0x00", ""].map codePoints ∧ offsetText 1536 ∉ lines := by
  obtain ⟨h1, -, h3⟩ := volume45_hyps
  have h : (match mbr volume45 with
      | (lines, .ok ()) => decide (lines.drop 17 = ["Partition: 3", "    Type\t\t\t\t: 0x07 (HPFS/NTFS)", "    Offset\t\t\t\t: 1024 (0x00000400)",
          "    Size\t\t\t\t: 512 bytes", "    Flags\t\t\t\t: 0x00", ""].map codePoints ∧ offsetText 1536 ∉ lines)
      | _ => false) = true := by decide +kernel
  split at h
  · rename_i lines hl
    obtain ⟨a, b⟩ := of_decide_eq_true h
    exact ⟨volume45, lines, h1, h3, by decide +kernel, hl, a, b⟩
  · cases h

private theorem last_mem : ∀ (l : List Mbr.Entry) (e : Mbr.Entry), l.foldl (fun m x => if m.start ≤ x.start then x else m) e ∈ e :: l
  | [], e => by simp
  | x :: l, e => by
    rw [List.foldl_cons]
    rcases List.mem_cons.1 (last_mem l (if e.start ≤ x.start then x else e)) with h | h
    · rw [h]
      split <;> simp
    · simp [h]

/-- C80, violated for the number of bytes per sector: a disk with primary partitions in the first eighth of it, as sectors have 512
bytes, is taken for one with sectors of 4096 bytes. All offsets and sizes are given eightfold. -/
theorem C80_violated_sectors (volume : List Byte) (hrec : Spec.Mbr.Record volume 0) (hx : Spec.Mbr.extended volume = []) (hne : Spec.Mbr.primary volume ≠ [])
    (hfirst : ∀ e ∈ Spec.Mbr.primary volume, (Spec.field e 8 4 + Spec.field e 12 4) * 512 ≤ volume.length / 8) (s : Mbr.System)
    (h : Mbr.readBoot volume 0 = .ok s) : s.bps = 4096 := by
  obtain ⟨s', hs', -, hlist, -⟩ := C45_listing_primary volume 0 hrec hx
  rw [h] at hs'
  cases hs'
  have hmem : ∀ e ∈ s.entries, (e.start + e.sectors) * 512 ≤ volume.length / 8 := by
    intro e he
    have : (e.flags, e.kind, e.start, e.sectors) ∈ s.entries.map (fun e => (e.flags, e.kind, e.start, e.sectors)) := List.mem_map_of_mem he
    rw [hlist] at this
    obtain ⟨d, hd, heq⟩ := List.mem_map.1 this
    have := hfirst d hd
    simp only [Prod.mk.injEq] at heq
    rw [← heq.2.2.1, ← heq.2.2.2]
    exact this
  have hne' : s.entries ≠ [] := by
    intro hc
    rw [hc] at hlist
    exact hne (List.map_eq_nil_iff.1 hlist.symm)
  obtain ⟨r, hr, -, hr1, hr2⟩ := (Mbr.readRecordAt_good volume 0).exists_ok hrec
  unfold Mbr.readBoot at h
  rw [← bind_assoc, hr, R.ok_bind, hr2] at h
  obtain ⟨bps, hd, h⟩ := R.bind_eq_ok.1 h
  obtain ⟨m, -, h⟩ := R.bind_eq_ok.1 h
  obtain ⟨es, -, h⟩ := R.bind_eq_ok.1 h
  cases h
  have hb : bps = 0 := by
    unfold Mbr.detect at hd
    rw [if_pos rfl] at hd
    have : (((List.range 4).map (Spec.Mbr.entry volume 0)).map Mbr.parse).find? (fun e => decide (e.kind = 5 ∨ e.kind = 15)) = none := by
      rw [List.find?_eq_none]
      intro e he
      obtain ⟨d, hd, rfl⟩ := List.mem_map.1 he
      have := List.filter_eq_nil_iff.1 hx d hd
      show ¬ (decide (Spec.Mbr.kind d = 5 ∨ Spec.Mbr.kind d = 15) = true)
      simpa using this
    rw [this] at hd
    cases hd
    rfl
  subst hb
  simp only at hmem hne'
  show Mbr.guess volume es 0 = 4096
  unfold Mbr.guess
  rw [if_pos rfl]
  cases es with
  | nil => exact absurd rfl hne'
  | cons e es =>
    have hl := hmem _ (last_mem es e)
    simp only [Mbr.lastEntry]
    generalize es.foldl (fun m x => if m.start ≤ x.start then x else m) e = x at hl
    generalize x.start + x.sectors = n at hl
    simp only [Mbr.guessSize]
    rw [if_neg (by omega), if_neg (by omega), if_neg (by omega), if_neg (by omega)]

/-- The hypotheses are met by a disk of 16 sectors with a partition in the second one. -/
example : let volume := List.replicate 446 0#8 ++ ([0x80#8, 0#8, 0#8, 0#8, 7#8, 0#8, 0#8, 0#8] ++ leBytes 4 1 ++ leBytes 4 1) ++
      List.replicate 48 0#8 ++ [0x55#8, 0xaa#8] ++ List.replicate 7680 0#8
    Spec.Mbr.Record volume 0 ∧ Spec.Mbr.extended volume = [] ∧ (Spec.Mbr.primary volume).length = 1 ∧
    (∀ e ∈ Spec.Mbr.primary volume, (Spec.field e 8 4 + Spec.field e 12 4) * 512 ≤ volume.length / 8) ∧ ∃ s, Mbr.readBoot volume 0 = .ok s :=
  ⟨⟨by decide +kernel, by decide +kernel⟩, by decide +kernel, by decide +kernel, by decide +kernel, ⟨⟨4096, 0, 0, [⟨0, 0x80, 7, 1, 1⟩]⟩, by decide +kernel⟩⟩

/-- A map of two entries with a name. -/
private def apm80 (name : List Byte) : List Byte :=
  List.replicate 512 0#8 ++
    ([0x50#8, 0x4d#8, 0#8, 0#8] ++ beBytes 4 2 ++ beBytes 4 1 ++ beBytes 4 2 ++ List.replicate 32 0#8 ++ Spec.Apm.mapType ++ List.replicate 445 0#8) ++
    ([0x50#8, 0x4d#8, 0#8, 0#8] ++ beBytes 4 2 ++ beBytes 4 3 ++ beBytes 4 7 ++ (name ++ List.replicate (32 - name.length) 0#8) ++
      ([0x48#8, 0x46#8, 0x53#8] ++ List.replicate 29 0#8) ++ List.replicate 8 0#8 ++ beBytes 4 0x40000012 ++ List.replicate 420 0#8)

/-- The hypotheses of `C80_apm_partial` are met, and what is printed. -/
example : Spec.Apm.Map (apm80 [0x61#8, 0x5c#8]) 2 ∧
    (∀ i, 0 < i → i < 2 → Utf8Of (textBytes (Spec.bytesAt (Spec.Apm.entry (apm80 [0x61#8, 0x5c#8]) i) 48 32)) [0x48, 0x46, 0x53]) ∧
    (∀ i, 0 < i → i < 2 → Utf8Of (textBytes (Spec.bytesAt (Spec.Apm.entry (apm80 [0x61#8, 0x5c#8]) i) 16 32)) [0x61, 0x5c]) ∧
    apm (apm80 [0x61#8, 0x5c#8]) = (["Apple Partition Map (APM) information:", "    Bytes per sector\t\t\t: 512 bytes", "    Number of partitions\t\t: 1", "",
      "Partition: 1", "    Type identifier\t\t\t: HFS", "    Name\t\t\t\t: a\\\\", "    Offset\t\t\t\t: 1536 (0x00000600)",
      "    Size\t\t\t\t: 3.5 KiB (3584 bytes)", "    Status flags\t\t\t: 0x40000012", "        0x00000002: Is allocated", "        0x00000010: Is readable",
      "        0x40000000: Automatic mount at startup", ""].map codePoints, .ok ()) := by
  have one : ∀ i, 0 < i → i < 2 → i = 1 := by omega
  refine ⟨⟨by decide, by decide +kernel, by decide +kernel, List.replicate 12 0#8, by decide +kernel⟩, ?_, ?_, by decide +kernel⟩
  · intro i h1 h2
    rw [one i h1 h2]
    exact ⟨by simp [Spec.Utf8.isScalar], by decide +kernel⟩
  · intro i h1 h2
    rw [one i h1 h2]
    exact ⟨by simp [Spec.Utf8.isScalar], by decide +kernel⟩

/-- C80 does not hold for every name of an Apple partition map: one that is no UTF-8 makes the tool panic; one with a line feed gives a
line that looks like another partition. -/
theorem C80_violated_name : (∃ volume lines, Spec.Apm.Map volume 2 ∧ apm volume = (lines, .panic)) ∧
    ∃ volume lines before, Spec.Apm.Map volume 2 ∧ apm volume = (lines, .ok ()) ∧ before ++ [0x0a] ++ codePoints "Partition: 2" ∈ lines := by
  refine ⟨?_, ?_⟩
  · have h : (match apm (apm80 [0xe9#8]) with | (_, .panic) => true | _ => false) = true := by decide +kernel
    split at h
    · rename_i lines hl
      exact ⟨apm80 [0xe9#8], lines, ⟨by decide, by decide +kernel, by decide +kernel, List.replicate 12 0#8, by decide +kernel⟩, hl⟩
    · cases h
  · have h : (match apm (apm80 (0x0a#8 :: ascii "Partition: 2")) with
        | (lines, .ok ()) => decide (codePoints "    Name\t\t\t\t: " ++ [0x0a] ++ codePoints "Partition: 2" ∈ lines)
        | _ => false) = true := by decide +kernel
    split at h
    · rename_i lines hl
      exact ⟨apm80 (0x0a#8 :: ascii "Partition: 2"), lines, _, ⟨by decide, by decide +kernel, by decide +kernel, List.replicate 12 0#8, by decide +kernel⟩, hl,
        of_decide_eq_true h⟩
    · cases h

end Keramics.Props
