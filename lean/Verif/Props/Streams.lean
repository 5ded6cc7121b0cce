import Verif.Lemmas.Stream
import Verif.Model.DataStreams
import Verif.Props.Hashes

/-!
Property theorems: data streams (C08–C10).
-/

namespace Keramics.Props
open Keramics Keramics.Spec

/-! ## C08 -/

/-- The contents C08 asks for: the data followed by zeros up to the declared size. -/
def zeroExtended (data : List Byte) (size : Nat) : List Byte :=
  data.take size ++ List.replicate (size - data.length) 0

theorem fill_within (data : List Byte) (current n : Nat) (h : current + n ≤ data.length) :
    FakeDataStream.fill data current n = (data.drop current).take n := by
  unfold FakeDataStream.fill
  by_cases h0 : n = 0
  · simp [h0]
  · have : current < data.length := by omega
    simp only [h0, dite_false, this, dite_true]
    rw [Nat.min_eq_left (by omega), Nat.sub_self]
    unfold FakeDataStream.fill; simp

theorem fill_beyond (data : List Byte) (current n : Nat) (h : data.length ≤ current) :
    FakeDataStream.fill data current n = List.replicate n 0 := by
  unfold FakeDataStream.fill
  by_cases h0 : n = 0
  · simp [h0]
  · simp [h0, show ¬ current < data.length by omega]

theorem fill_length (data : List Byte) (current n : Nat) :
    (FakeDataStream.fill data current n).length = n := by
  induction n using Nat.strongRecOn with
  | _ n ih =>
    unfold FakeDataStream.fill
    by_cases h0 : n = 0
    · simp [h0]
    · by_cases h : current < data.length
      · simp only [h0, dite_false, h, dite_true, List.length_append, List.length_take,
          List.length_drop]
        rw [ih _ (by omega)]; omega
      · simp [h0, h]

/-- C08 is false of the code: a read that crosses the end of the data repeats the data instead of
reading zeros. -/
theorem C08_violated : ∃ (data : List Byte) (size : Nat) (ops : List StreamOp) (tr : _),
    Stream.run (FakeDataStream.reader data size) ⟨(), 0⟩ ops = .ok tr ∧
    ¬ Trace true (zeroExtended data size) size 0 tr := by
  refine ⟨[1#8, 2#8], 4, [.read 4], [(.read 4, .bytes [1#8, 2#8, 1#8, 2#8])], ?_, ?_⟩
  · have h1 : FakeDataStream.fill [1#8, 2#8] 0 2 = [1#8, 2#8] := by rw [fill_within _ _ _ (by decide)]; rfl
    have h2 : FakeDataStream.fill [1#8, 2#8] 0 4 = [1#8, 2#8, 1#8, 2#8] := by
      unfold FakeDataStream.fill
      simp [h1]
    simp [Stream.run, Stream.step, Stream.read, FakeDataStream.reader, h2, R.addU]
  · intro h
    cases h with
    | read h _ =>
      have : [1#8, 2#8, 1#8, 2#8] = (zeroExtended [1#8, 2#8] 4).take 4 := by
        unfold readOk at h; simpa using h.2.2 rfl
      revert this; decide

/-- C08, the part that holds of whole histories: if the declared size does not exceed the data
(always so for streams made by `open_fake_data_stream`) every sequence of reads and seeks behaves
as the contents. Missing: declared sizes beyond the data, see `C08_violated` and
`C08_fake_stream_read_partial`. -/
theorem C08_fake_stream_partial (data : List Byte) (size : Nat) (hsize : size ≤ data.length)
    (ops : List StreamOp) (hf : size + seekBudget ops < 2 ^ 63) :
    ∃ tr, Stream.run (FakeDataStream.reader data size) ⟨(), 0⟩ ops = .ok tr ∧
      tr.map Prod.fst = ops ∧ Trace true (zeroExtended data size) size 0 tr := by
  have hC : (zeroExtended data size).length = size := by simp [zeroExtended]; omega
  refine stream_correct (r := FakeDataStream.reader data size) (Inv := fun _ => True)
    (C := zeroExtended data size) ?_ ?_ (by rw [hC]; exact Nat.le_refl _) ops hf () trivial
  · intro s pos n out s' _ hp hn h
    have hn : pos + n ≤ size := hn
    have hp : pos < size := hp
    have hout : FakeDataStream.fill data pos n = out := by
      simpa [FakeDataStream.reader] using h
    rw [fill_within _ _ _ (by omega)] at hout
    have hz : zeroExtended data size = data.take size := by
      simp [zeroExtended, Nat.sub_eq_zero_of_le hsize]
    have : out = ((zeroExtended data size).drop pos).take n := by
      rw [← hout, hz, List.drop_take, List.take_take, Nat.min_eq_left (by omega)]
    refine ⟨trivial, by rw [this], ?_, fun _ => this⟩
    intro h0 _ he
    have : out.length = n := by rw [← hout]; simp only [List.length_take, List.length_drop]; omega
    rw [he] at this; simp at this; omega
  · intro s pos n _ _ _
    exact ⟨_, _, rfl⟩

/-- C08, per read: from any position, a read that does not cross the end of the data returns exactly
the bytes of the zero-extended contents; and no read ever returns more than the declared size
allows. Missing: reads that cross the end of the data. -/
theorem C08_fake_stream_read_partial (data : List Byte) (size cur n : Nat) (hcur : cur < 2 ^ 63)
    (hsize : size < 2 ^ 63) :
    ∃ out, Stream.read (FakeDataStream.reader data size) ⟨(), cur⟩ n
        = .ok (out, ⟨(), cur + out.length⟩) ∧
      out.length = min n (size - cur) ∧
      (data.length ≤ cur ∨ cur + n ≤ data.length →
        out = ((zeroExtended data size).drop cur).take n) := by
  have hr : (FakeDataStream.reader data size).size = size := rfl
  unfold Stream.read
  by_cases hc : cur ≥ size
  · refine ⟨[], by simp [hc, hr], by simp; omega, ?_⟩
    intro _
    rw [List.drop_of_length_le]
    · simp
    · simp [zeroExtended]; omega
  · simp only [hc, if_false, FakeDataStream.reader, R.ok_bind, fill_length]
    refine ⟨FakeDataStream.fill data cur (min n (size - cur)), ?_, ?_, ?_⟩
    · simp only [fill_length]
      have : (min n (size - cur)) ≤ size := by omega
      rw [R.addU_ok (Nat.lt_of_le_of_lt (Nat.add_le_add_left this cur) (by omega))]
      rfl
    · rw [fill_length]
    · generalize hm : (min n (size - cur)) = m
      have hm' : m = min n (size - cur) := hm.symm
      rintro (h | h)
      · rw [fill_beyond _ _ _ h]
        unfold zeroExtended
        rw [List.drop_append, List.drop_of_length_le (by simp; omega), List.nil_append,
          List.drop_replicate, List.take_replicate]
        congr 1; simp; omega
      · rw [fill_within _ _ _ (by omega)]
        unfold zeroExtended
        rw [List.drop_append, List.take_append, List.drop_take, List.take_take,
          List.drop_replicate, List.take_replicate]
        have e1 : min n (size - cur) = m := hm'.symm
        rw [e1]
        have e2 : (min (n - ((List.drop cur data).take (size - cur)).length)
          (size - data.length - (cur - (List.take size data).length))) = 0 := by
          simp; omega
        rw [e2]; simp

example : (3 : Nat) ≤ ([1, 2, 3, 4] : List Byte).length
    ∧ 3 + seekBudget [.read 2, .seek (.current (-1)), .read 7] < 2 ^ 63 := by decide

/-! ## C09 -/

/-- Legal behaviour of the underlying stream with contents `U`: every call returns a prefix of what
is there, possibly short, and nothing only at the end. -/
def LegalUnder (U : List Byte) (under : Nat → Nat → Nat → List Byte) : Prop :=
  ∀ k pos n : Nat, readOk false U U.length pos n (under k pos n)

theorem window_reader_ok (U : List Byte) (under : Nat → Nat → Nat → List Byte)
    (hu : LegalUnder U under) (w : Window.Win) :
    ReaderOk (Window.reader under w) (fun _ => True) ((U.drop w.offset).take w.size) false := by
  intro k pos n out k' _ hp hn h
  have hn : pos + n ≤ w.size := hn
  simp only [Window.reader, R.bind_eq_ok] at h
  obtain ⟨a, ha, he⟩ := h
  have hae : a = w.offset + pos := by unfold R.addU at ha; split at ha <;> simp_all
  subst hae
  have he : under k (w.offset + pos) n = out ∧ k + 1 = k' := by simpa using he
  obtain ⟨rfl, rfl⟩ := he
  have hl := hu k (w.offset + pos) n
  unfold readOk at hl
  have htake : (((U.drop w.offset).take w.size).drop pos).take n
      = (U.drop (w.offset + pos)).take n := by
    rw [List.drop_take, List.take_take, List.drop_drop, Nat.min_eq_left (by omega)]
  rw [htake]
  refine ⟨trivial, ?_, ?_, by simp⟩
  · split at hl
    · have := hl.1; rwa [Int.toNat_natCast] at this
    · rw [hl]; exact List.nil_prefix
  · intro h0 hlt
    simp only [List.length_take, List.length_drop] at hlt
    rw [if_pos (by omega)] at hl
    exact hl.2.1 h0 (by omega)

/-- C09. A GPT, MBR or APM partition (a window of `size` bytes at `offset` of the underlying
stream): every sequence of reads and seeks succeeds and behaves as a stream whose contents are
exactly the underlying bytes of the window. -/
theorem C09_window_stream (U : List Byte) (under : Nat → Nat → Nat → List Byte)
    (hu : LegalUnder U under) (offset size : Nat) (hfit : offset + size ≤ 2 ^ 64)
    (ops : List StreamOp) (hf : size + seekBudget ops < 2 ^ 63) :
    ∃ tr, Stream.run (Window.reader under ⟨offset, size⟩) ⟨0, 0⟩ ops = .ok tr ∧
      tr.map Prod.fst = ops ∧ Trace false ((U.drop offset).take size) size 0 tr := by
  refine stream_correct (window_reader_ok U under hu ⟨offset, size⟩) ?_ (by simp [Window.reader])
    ops hf 0 trivial
  intro k pos n _ hp _
  have hp : pos < size := hp
  simp only [Window.reader]
  rw [R.addU_ok (by omega)]
  exact ⟨_, _, rfl⟩

/-- C09. The file range stream: opening fails exactly when the range starts at or after the end of
the file; otherwise its contents are the rest of the file. -/
theorem C09_file_range_stream (U : List Byte) (under : Nat → Nat → Nat → List Byte)
    (hu : LegalUnder U under) (hU : U.length < 2 ^ 64) (rangeOffset : Nat) :
    (U.length ≤ rangeOffset ∧ Window.openFileRange U.length rangeOffset = .err) ∨
    ∃ w, Window.openFileRange U.length rangeOffset = .ok w ∧
      ∀ ops : List StreamOp, U.length - rangeOffset + seekBudget ops < 2 ^ 63 →
        ∃ tr, Stream.run (Window.reader under w) ⟨0, 0⟩ ops = .ok tr ∧ tr.map Prod.fst = ops ∧
          Trace false (U.drop rangeOffset) (U.length - rangeOffset) 0 tr := by
  by_cases h : rangeOffset ≥ U.length
  · exact .inl ⟨h, by simp [Window.openFileRange, h]⟩
  · refine .inr ⟨⟨rangeOffset, U.length - rangeOffset⟩, by simp [Window.openFileRange, h], ?_⟩
    intro ops hf
    have := C09_window_stream U under hu rangeOffset (U.length - rangeOffset) (by omega) ops hf
    rw [List.take_of_length_le (by simp)] at this
    exact this

/-- A legal underlying stream that returns at most 3 bytes per call. -/
example : LegalUnder [1, 2, 3, 4, 5, 6, 7, 8]
    (fun _ pos n => (([1, 2, 3, 4, 5, 6, 7, 8] : List Byte).drop pos).take (min n 3)) := by
  intro k pos n
  unfold readOk
  split
  · refine ⟨?_, ?_, by simp⟩
    · rw [Int.toNat_natCast]
      exact List.take_prefix_take_left (by omega)
    · intro hn hl he
      have := congrArg List.length he
      simp at this hl
      omega
  · rename_i h
    have hp : 8 ≤ pos := by simp at h; omega
    show List.take _ (List.drop pos _) = []
    rw [List.drop_of_length_le (by simpa using hp)]; simp

/-! ## C10 -/

/-- C10. Whatever the buffer sizes and however short the reads: the bytes returned by consecutive
reads up to the first empty one are exactly the contents. -/
theorem C10_sequential_reads (full : Bool) (C : List Byte) (reads : List (Nat × List Byte))
    (lastSize : Nat) (hlast : 0 < lastSize)
    (htrace : Trace full C C.length 0
      ((reads ++ [(lastSize, [])]).map fun r : Nat × List Byte =>
        (StreamOp.read r.1, StreamOut.bytes r.2))) :
    (reads.map Prod.snd).flatten = C := by
  suffices H : ∀ (reads : List (Nat × List Byte)) (q : Nat), q ≤ C.length →
      Trace full C C.length q
        ((reads ++ [(lastSize, [])]).map fun r : Nat × List Byte =>
        (StreamOp.read r.1, StreamOut.bytes r.2)) →
      (reads.map Prod.snd).flatten = C.drop q by
    simpa using H reads 0 (Nat.zero_le _) htrace
  intro reads
  induction reads with
  | nil =>
    intro q hq h
    cases h with
    | read h _ =>
      unfold readOk at h
      by_cases hlt : q < C.length
      · rw [if_pos (by omega)] at h
        exact absurd rfl (h.2.1 hlast (by simpa using hlt))
      · rw [List.drop_of_length_le (by omega)]; rfl
  | cons r rs ih =>
    intro q hq h
    cases h with
    | read h hrest =>
      unfold readOk at h
      split at h
      · have hpre := h.1
        have hl := hpre.length_le
        simp only [Int.toNat_natCast, List.length_take, List.length_drop] at hl hpre
        have := ih (q + r.2.length) (by omega) (by simpa using hrest)
        simp only [List.map_cons, List.flatten_cons, this]
        have hpre' : r.2 <+: C.drop q := hpre.trans (List.take_prefix _ _)
        obtain ⟨t, ht⟩ := hpre'
        rw [← ht, ← List.drop_drop, ← ht]; simp
      · have hr : r.2 = [] := h
        have := ih q hq (by simpa [hr] using hrest)
        simp [hr, this]

/-- C10. At most as many non-empty reads as there are bytes happen before the end is reported. -/
theorem C10_read_count (full : Bool) (C : List Byte) (reads : List (Nat × List Byte))
    (htrace : Trace full C C.length 0
      (reads.map fun r : Nat × List Byte =>
        (StreamOp.read r.1, StreamOut.bytes r.2)))
    (hne : ∀ r ∈ reads, r.2 ≠ []) : reads.length ≤ C.length := by
  suffices H : ∀ (reads : List (Nat × List Byte)) (q : Nat), q ≤ C.length →
      (∀ r ∈ reads, r.2 ≠ []) → Trace full C C.length q
        (reads.map fun r : Nat × List Byte =>
        (StreamOp.read r.1, StreamOut.bytes r.2)) →
      q + reads.length ≤ C.length by
    simpa using H reads 0 (Nat.zero_le _) hne htrace
  intro reads
  induction reads with
  | nil => intro q hq _ _; simpa using hq
  | cons r rs ih =>
    intro q hq hne h
    have hr : 0 < r.2.length := List.length_pos_iff.mpr (hne r List.mem_cons_self)
    cases h with
    | read h hrest =>
      unfold readOk at h
      split at h
      · have hl := h.1.length_le
        simp only [Int.toNat_natCast, List.length_take, List.length_drop] at hl
        have := ih (q + r.2.length) (by omega) (fun x hx => hne x (List.mem_cons_of_mem _ hx))
          (by simpa using hrest)
        simp only [List.length_cons]; omega
      · rw [h] at hr; simp at hr

/-- The digest each hash type stands for. -/
noncomputable def specDigest : Hasher.HashType → List Byte → List Byte
  | .md5 => Spec.md5 | .sha1 => Spec.sha1 | .sha224 => Spec.sha224 | .sha256 => Spec.sha256
  | .sha512 => Spec.sha512

/-- A reader of contents `C`: `at_ s p` says that state `s` is at position `p`; every read succeeds,
returns legal (possibly short) data and moves the position accordingly. -/
def ReadsContents {σ : Type} (C : List Byte) (read : σ → Nat → R (List Byte × σ))
    (at_ : σ → Nat → Prop) : Prop :=
  ∀ s p n, at_ s p → ∃ out s', read s n = .ok (out, s') ∧ readOk false C C.length p n out
    ∧ at_ s' (p + out.length)

open Digest in
theorem hash_loop {H σ : Type} (A : Alg H) (C : List Byte) (read : σ → Nat → R (List Byte × σ))
    (at_ : σ → Nat → Prop) (hread : ReadsContents C read at_) (digest : List Byte)
    (hA : ∀ chunks : List (List Byte), chunks.flatten = C →
      (do let c ← chunks.foldlM (Ctx.update A) (Ctx.new A); c.finalize A)
        = R.ok (digest, Ctx.new A)) (fuel : Nat) :
    ∀ (chunks : List (List Byte)) (c : Ctx H) (s : σ) (p : Nat), at_ s p → p ≤ C.length →
      chunks.flatten = C.take p → chunks.foldlM (Ctx.update A) (Ctx.new A) = .ok c →
      C.length - p < fuel → Hasher.loop A read fuel c s = .ok digest := by
  induction fuel with
  | zero => intro _ _ _ _ _ _ _ _ h; omega
  | succ fuel ih =>
    intro chunks c s p hs hp hch hc hfuel
    obtain ⟨out, s', hr, hok, hs'⟩ := hread s p 65536 hs
    unfold Hasher.loop
    rw [hr, R.ok_bind]
    unfold readOk at hok
    by_cases h0 : out.length = 0
    · have hout : out = [] := List.length_eq_zero_iff.mp h0
      have hpe : p = C.length := by
        apply Nat.le_antisymm hp
        by_cases hlt : p < C.length
        · rw [if_pos (by omega)] at hok
          exact absurd hout (hok.2.1 (by decide) (by simpa using hlt))
        · omega
      have := hA chunks (by rw [hch, hpe, List.take_length])
      rw [hc, R.ok_bind] at this
      simp [h0, this]
    · simp only [h0, if_false]
      have hin : 0 ≤ (p : Int) ∧ (p : Int) < C.length := by
        by_contra hn
        rw [if_neg hn] at hok
        exact h0 (by rw [hok]; rfl)
      rw [if_pos hin] at hok
      have hpre := hok.1
      have hl := hpre.length_le
      simp only [Int.toNat_natCast, List.length_take, List.length_drop] at hl hpre
      have hpre' : out <+: C.drop p := hpre.trans (List.take_prefix _ _)
      have htake : C.take (p + out.length) = C.take p ++ out := by
        rw [List.take_add]
        congr 1
        exact (List.prefix_iff_eq_take.mp hpre').symm
      -- the chunks read so far extend to a full message, so `update` cannot have failed
      have hfold : ∃ c', Ctx.update A c out = .ok c' ∧
          (chunks ++ [out]).foldlM (Ctx.update A) (Ctx.new A) = .ok c' := by
        have := hA (chunks ++ [out, C.drop (p + out.length)]) (by
          simp only [List.flatten_append, List.flatten_cons, List.flatten_nil, hch,
            List.append_nil]
          rw [← List.append_assoc, ← htake, List.take_append_drop])
        rw [List.foldlM_append, hc, R.ok_bind] at this
        simp only [List.foldlM_cons] at this
        cases hu : Ctx.update A c out with
        | ok c' => exact ⟨c', rfl, by rw [List.foldlM_append, hc, R.ok_bind]; simp [hu]⟩
        | err => rw [hu] at this; cases this
        | panic => rw [hu] at this; cases this
      obtain ⟨c', hc', hfc⟩ := hfold
      rw [hc', R.ok_bind]
      refine ih (chunks ++ [out]) c' s' (p + out.length) hs' (by omega) ?_ hfc (by omega)
      simp [hch, htake]

/-- C10. The hash tool prints the digest of the whole contents in hexadecimal, for each hash type and
however short the reads are; more than `length C` loop iterations are never needed. -/
theorem C10_hasher {σ : Type} (t : Hasher.HashType) (C : List Byte) (hC : C.length < 2 ^ 61)
    (read : σ → Nat → R (List Byte × σ)) (at_ : σ → Nat → Prop)
    (hread : ReadsContents C read at_) (s : σ) (hs : at_ s 0) (fuel : Nat) (hfuel : C.length < fuel) :
    Hasher.calculateHash t read fuel s
      = .ok (Hasher.formatAsString (specDigest t C)) := by
  have key : ∀ {H : Type} (A : Digest.Alg H) (digest : List Byte),
      (∀ chunks : List (List Byte), chunks.flatten = C →
        (do let c ← chunks.foldlM (Digest.Ctx.update A) (Digest.Ctx.new A); c.finalize A)
          = R.ok (digest, Digest.Ctx.new A)) →
      Hasher.loop A read fuel (Digest.Ctx.new A) s = .ok digest := fun A digest hA =>
    hash_loop A C read at_ hread digest hA fuel [] _ s 0 hs (Nat.zero_le _) (by simp) rfl
      (by omega)
  cases t <;> simp only [Hasher.calculateHash, specDigest]
  · rw [key Digest.md5 (Spec.md5 C) fun ch e => e ▸ C04_md5_chunked ch (e ▸ hC)]; rfl
  · rw [key Digest.sha1 (Spec.sha1 C) fun ch e => e ▸ C05_sha1_chunked ch (e ▸ hC)]; rfl
  · rw [key Digest.sha224 (Spec.sha224 C) fun ch e => e ▸ C06_sha224_chunked ch (e ▸ hC)]; rfl
  · rw [key Digest.sha256 (Spec.sha256 C) fun ch e => e ▸ C06_sha256_chunked ch (e ▸ hC)]; rfl
  · rw [key Digest.sha512 (Spec.sha512 C) fun ch e => e ▸ C07_sha512_chunked ch (e ▸ hC)]; rfl

/-- A window of a short-reading underlying stream is such a reader. -/
theorem window_readsContents (U : List Byte) (under : Nat → Nat → Nat → List Byte)
    (hu : LegalUnder U under) (offset size : Nat) (hfit : offset + size ≤ U.length)
    (hU : U.length < 2 ^ 63) :
    ReadsContents ((U.drop offset).take size)
      (fun s n => Stream.read (Window.reader under ⟨offset, size⟩) s n)
      (fun s p => s.current = p ∧ p ≤ size) := by
  have hlen : ((U.drop offset).take size).length = size := by simp; omega
  intro s p n ⟨hs, hp⟩
  have hrel : PosRel s.current p := hs ▸ PosRel.ofNat (by omega)
  have hex : ∃ out s', Stream.read (Window.reader under ⟨offset, size⟩) s n = .ok (out, s')
      ∧ s'.current = p + out.length := by
    unfold Stream.read
    by_cases hc : s.current ≥ (Window.reader under ⟨offset, size⟩).size
    · exact ⟨[], s, by simp only [hc, if_true]; rfl, by simp [hs]⟩
    · simp only [hc, if_false]
      have hlt : p < size := by simp [Window.reader] at hc; omega
      simp only [Window.reader]
      rw [R.addU_ok (by omega)]
      simp only [R.ok_bind, R.pure_eq]
      have hl : ∀ m, (under s.inner (offset + s.current) m).length ≤ U.length := by
        intro m
        have := hu s.inner (offset + s.current) m
        unfold readOk at this
        split at this
        · have := this.1.length_le; simp at this; omega
        · rw [this]; simp
      have := hl (min n (size - s.current))
      rw [R.addU_ok (by omega)]
      exact ⟨_, _, rfl, by simp [hs]⟩
  obtain ⟨out, s', hr, hcur⟩ := hex
  obtain ⟨_, hok, _⟩ := read_ok (window_reader_ok U under hu ⟨offset, size⟩)
    (by rw [hlen]; simp [Window.reader]) (by simp [Window.reader]; omega) trivial hrel hr
  refine ⟨out, s', hr, by rw [hlen]; exact hok, hcur, ?_⟩
  unfold readOk at hok
  split at hok
  · have := hok.1.length_le
    simp only [Int.toNat_natCast, List.length_take, List.length_drop] at this
    omega
  · rw [hok]; simpa using hp

end Keramics.Props
