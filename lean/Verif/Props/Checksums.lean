import Verif.Lemmas.Adler32
import Verif.Lemmas.Crc32

/-! Property theorems: checksums (C01–C03). -/

namespace Keramics.Props
open Keramics

/-- C01. For every initial value and every list of chunks the updates do not panic, `finalize`
returns the RFC 1950 Adler-32 of the concatenated chunks, and the context that is left equals a
newly created one. -/
theorem C01_adler32_chunked (initial : BitVec 32) (chunks : List (List Byte)) :
    (do let c ← chunks.foldlM Adler32.Ctx.update (Adler32.Ctx.new initial)
        return c.finalize)
      = R.ok (BitVec.ofNat 32 (Spec.adler32 initial.toNat (chunks.flatten.map BitVec.toNat)),
         Adler32.Ctx.new initial) := by
  obtain ⟨c, h1, h2, h3⟩ := Adler32.updates_spec (Adler32.Ctx.new initial) chunks
  simp only [h1, R.ok_bind, R.pure_eq, R.ok.injEq, Adler32.Ctx.finalize, Prod.mk.injEq]
  constructor
  · apply BitVec.eq_of_toNat_eq
    have hlt := c.checksum.isLt
    rw [h3] at hlt
    rw [h3, BitVec.toNat_ofNat]
    exact (Nat.mod_eq_of_lt hlt).symm
  · rw [h2]; rfl

/-- The RFC 1950 spec on a known vector ("Wikipedia" = 0x11E60398). -/
example : Spec.adler32 1 [0x57, 0x69, 0x6b, 0x69, 0x70, 0x65, 0x64, 0x69, 0x61] = 0x11E60398 := by
  decide

/-- C02. For every polynomial, initial value and list of chunks the updates do not panic,
`finalize` returns the bit-serial MSB-first CRC-32 of the concatenated chunks, and continuing to use
the context gives the same results as a newly created one, for every later list of chunks. -/
theorem C02_crc32_chunked (polynomial initial : BitVec 32) (chunks later : List (List Byte)) :
    ∃ c, (do let c ← chunks.foldlM Crc32.Ctx.update (Crc32.Ctx.new polynomial initial)
             return c.finalize) = R.ok (Spec.crc32 polynomial initial chunks.flatten, c) ∧
      (do let c ← later.foldlM Crc32.Ctx.update c
          return c.finalize.1) = R.ok (Spec.crc32 polynomial initial later.flatten) := by
  have hnot : ∀ x : BitVec 32, x ^^^ 0xffffffff#32 = ~~~ x := fun x => by
    rw [show (0xffffffff#32) = BitVec.allOnes 32 from rfl, BitVec.xor_allOnes]
  obtain ⟨c, h1, h2, h3, h4, h5⟩ := Crc32.updates_ok _ (Crc32.Inv.new _ polynomial initial) chunks
  refine ⟨c.finalize.2, ?_, ?_⟩
  · simp only [h1, R.ok_bind, R.pure_eq, R.ok.injEq]
    refine Prod.ext ?_ rfl
    simp only [Crc32.Ctx.finalize, h5, hnot, Spec.crc32, Crc32.Ctx.new]
  · obtain ⟨d, g1, g2, g3, g4, g5⟩ := Crc32.updates_ok c.finalize.2 ⟨h2.len, h2.tbl⟩ later
    simp only [g1, R.ok_bind, R.pure_eq, R.ok.injEq]
    simp only [Crc32.Ctx.finalize] at g5
    simp only [Crc32.Ctx.finalize, g5, h3, h4, hnot, Spec.crc32, Crc32.Ctx.new]

/-- C03. The same for the reflected context. -/
theorem C03_crc32_reflected_chunked (polynomial initial : BitVec 32)
    (chunks later : List (List Byte)) :
    ∃ c, (do let c ← chunks.foldlM Crc32.Ctx.revUpdate (Crc32.Ctx.new polynomial initial)
             return c.finalize) = R.ok (Spec.crc32Reflected polynomial initial chunks.flatten, c) ∧
      (do let c ← later.foldlM Crc32.Ctx.revUpdate c
          return c.finalize.1) = R.ok (Spec.crc32Reflected polynomial initial later.flatten) := by
  have hnot : ∀ x : BitVec 32, x ^^^ 0xffffffff#32 = ~~~ x := fun x => by
    rw [show (0xffffffff#32) = BitVec.allOnes 32 from rfl, BitVec.xor_allOnes]
  obtain ⟨c, h1, h2, h3, h4, h5⟩ :=
    Crc32.revUpdates_ok _ (Crc32.Inv.new _ polynomial initial) chunks
  refine ⟨c.finalize.2, ?_, ?_⟩
  · simp only [h1, R.ok_bind, R.pure_eq, R.ok.injEq]
    refine Prod.ext ?_ rfl
    simp only [Crc32.Ctx.finalize, h5, hnot, Spec.crc32Reflected, Crc32.Ctx.new]
  · obtain ⟨d, g1, g2, g3, g4, g5⟩ := Crc32.revUpdates_ok c.finalize.2 ⟨h2.len, h2.tbl⟩ later
    simp only [g1, R.ok_bind, R.pure_eq, R.ok.injEq]
    simp only [Crc32.Ctx.finalize] at g5
    simp only [Crc32.Ctx.finalize, g5, h3, h4, hnot, Spec.crc32Reflected, Crc32.Ctx.new]

/-- The specs on the standard check vector "123456789": CRC-32/BZIP2 and CRC-32/ISO-HDLC. -/
example : Spec.crc32 0x04c11db7#32 0#32
    [0x31, 0x32, 0x33, 0x34, 0x35, 0x36, 0x37, 0x38, 0x39] = 0xfc891918#32 := by decide +kernel
example : Spec.crc32Reflected 0xedb88320#32 0#32
    [0x31, 0x32, 0x33, 0x34, 0x35, 0x36, 0x37, 0x38, 0x39] = 0xcbf43926#32 := by decide +kernel

end Keramics.Props
