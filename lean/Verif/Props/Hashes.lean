import Verif.Lemmas.MD5

/-!
Property theorems: digests (C04–C07).

The statements quantify over every list of chunks passed to `update`. The context that `finalize`
leaves equals a newly created one, so a context may be reused any number of times: the theorem
applies again to the next message.
-/

namespace Keramics.Props
open Keramics Keramics.Digest

/-- C04. MD5. -/
theorem C04_md5_chunked (chunks : List (List Byte)) (hsize : chunks.flatten.length < 2 ^ 61) :
    (do let c ← chunks.foldlM (Ctx.update md5) (Ctx.new md5); c.finalize md5)
      = R.ok (Spec.md5 chunks.flatten, Ctx.new md5) := by
  rw [chunked md5_ok chunks hsize]
  congr 2
  exact mdHash_map toW4 _ Spec.md5Compress 64 md5.init md5.output _ (leBytes 8) (fun _ _ => rfl)
    (fun _ => rfl) _

/-- C05. SHA-1. -/
theorem C05_sha1_chunked (chunks : List (List Byte)) (hsize : chunks.flatten.length < 2 ^ 61) :
    (do let c ← chunks.foldlM (Ctx.update sha1) (Ctx.new sha1); c.finalize sha1)
      = R.ok (Spec.sha1 chunks.flatten, Ctx.new sha1) := by
  rw [chunked sha1_ok chunks hsize]
  congr 2
  exact mdHash_map toW5 _ Spec.sha1Compress 64 sha1.init sha1.output _ (beBytes 8) (fun _ _ => rfl)
    (fun _ => rfl) _

/-- C06. SHA-224. -/
theorem C06_sha224_chunked (chunks : List (List Byte)) (hsize : chunks.flatten.length < 2 ^ 61) :
    (do let c ← chunks.foldlM (Ctx.update sha224) (Ctx.new sha224); c.finalize sha224)
      = R.ok (Spec.sha224 chunks.flatten, Ctx.new sha224) := by
  rw [chunked sha224_ok chunks hsize]
  congr 2
  unfold Spec.sha224
  rw [← sha224_init]
  exact mdHash_map toW8 _ Spec.sha256Compress 64 sha224.init sha224.output _ (beBytes 8)
    (fun _ _ => rfl) (fun _ => by
      simp [sha224, Spec.W8.bytes, toW8, List.take_append, List.take_of_length_le]) _

/-- C06. SHA-256. -/
theorem C06_sha256_chunked (chunks : List (List Byte)) (hsize : chunks.flatten.length < 2 ^ 61) :
    (do let c ← chunks.foldlM (Ctx.update sha256) (Ctx.new sha256); c.finalize sha256)
      = R.ok (Spec.sha256 chunks.flatten, Ctx.new sha256) := by
  rw [chunked sha256_ok chunks hsize]
  congr 2
  unfold Spec.sha256
  rw [← sha256_init]
  exact mdHash_map toW8 _ Spec.sha256Compress 64 sha256.init sha256.output _ (beBytes 8)
    (fun _ _ => rfl) (fun _ => rfl) _

/-- C07. SHA-512. -/
theorem C07_sha512_chunked (chunks : List (List Byte)) (hsize : chunks.flatten.length < 2 ^ 61) :
    (do let c ← chunks.foldlM (Ctx.update sha512) (Ctx.new sha512); c.finalize sha512)
      = R.ok (Spec.sha512 chunks.flatten, Ctx.new sha512) := by
  rw [chunked sha512_ok chunks hsize]
  congr 2
  unfold Spec.sha512
  rw [← sha512_init]
  exact mdHash_map toW8 _ Spec.sha512Compress 128 sha512.init sha512.output _ (beBytes 16)
    (fun _ _ => rfl) (fun _ => rfl) _

/-! The hypothesis holds for a concrete list of chunks, and the specifications give the published
digests of "abc" (RFC 1321 A.5, FIPS 180-4 examples). The message is split in two chunks. -/

example : Spec.md5 [0x61, 0x62, 0x63] =
    [0x90, 0x01, 0x50, 0x98, 0x3c, 0xd2, 0x4f, 0xb0, 0xd6, 0x96, 0x3f, 0x7d, 0x28, 0xe1, 0x7f,
     0x72] := by
  have h := C04_md5_chunked [[0x61, 0x62], [0x63]] (by decide)
  have e : (do let c ← [[0x61, 0x62], [0x63]].foldlM (Ctx.update md5) (Ctx.new md5); c.finalize md5)
      = R.ok ([0x90, 0x01, 0x50, 0x98, 0x3c, 0xd2, 0x4f, 0xb0, 0xd6, 0x96, 0x3f, 0x7d, 0x28, 0xe1,
          0x7f, 0x72], Ctx.new md5) := by decide +kernel
  rw [e] at h
  exact (Prod.mk.inj (R.ok.inj h)).1.symm

example : Spec.sha1 [0x61, 0x62, 0x63] =
    [0xa9, 0x99, 0x3e, 0x36, 0x47, 0x06, 0x81, 0x6a, 0xba, 0x3e, 0x25, 0x71, 0x78, 0x50, 0xc2, 0x6c,
     0x9c, 0xd0, 0xd8, 0x9d] := by
  have h := C05_sha1_chunked [[0x61, 0x62], [0x63]] (by decide)
  have e : (do let c ← [[0x61, 0x62], [0x63]].foldlM (Ctx.update sha1) (Ctx.new sha1)
               c.finalize sha1)
      = R.ok ([0xa9, 0x99, 0x3e, 0x36, 0x47, 0x06, 0x81, 0x6a, 0xba, 0x3e, 0x25, 0x71, 0x78, 0x50,
          0xc2, 0x6c, 0x9c, 0xd0, 0xd8, 0x9d], Ctx.new sha1) := by decide +kernel
  rw [e] at h
  exact (Prod.mk.inj (R.ok.inj h)).1.symm

/-- First four bytes of the digest of a two chunk message, computed by the model. -/
def prefixOf {H : Type} (A : Alg H) (a b : List Byte) : Option (List Byte) :=
  match (do let c ← [a, b].foldlM (Ctx.update A) (Ctx.new A); c.finalize A : R _) with
  | .ok (d, _) => some (d.take 4)
  | _ => none

example : (Spec.sha256 [0x61, 0x62, 0x63]).take 4 = [0xba, 0x78, 0x16, 0xbf] := by
  have e : prefixOf sha256 [0x61, 0x62] [0x63] = some [0xba, 0x78, 0x16, 0xbf] := by decide +kernel
  rw [prefixOf, C06_sha256_chunked _ (by decide)] at e
  exact Option.some.inj e

example : (Spec.sha224 [0x61, 0x62, 0x63]).take 4 = [0x23, 0x09, 0x7d, 0x22] := by
  have e : prefixOf sha224 [0x61, 0x62] [0x63] = some [0x23, 0x09, 0x7d, 0x22] := by decide +kernel
  rw [prefixOf, C06_sha224_chunked _ (by decide)] at e
  exact Option.some.inj e

example : (Spec.sha512 [0x61, 0x62, 0x63]).take 4 = [0xdd, 0xaf, 0x35, 0xa1] := by
  have e : prefixOf sha512 [0x61, 0x62] [0x63] = some [0xdd, 0xaf, 0x35, 0xa1] := by decide +kernel
  rw [prefixOf, C07_sha512_chunked _ (by decide)] at e
  exact Option.some.inj e

end Keramics.Props
