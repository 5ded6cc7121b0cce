import Verif.Lemmas.LzxSat

/-!
# C65: LZX decompression

The format is in `Spec/Lzx.lean`, the model in `Model/Lzx.lean`.
-/

namespace Keramics.Lzx
open Keramics.Spec.Lzx Keramics.Spec.Huffman Keramics.Deflate Keramics.Huffman

/-- The state at the start. -/
theorem start_is (buf : List Byte) :
    StIs ⟨List.replicate 256 0, List.replicate 240 0, List.replicate 249 0, ⟨1, 1, 1⟩, buf, 0⟩ State.start [] buf :=
  ⟨(enc_replicate 256 0).symm, (enc_replicate 240 0).symm, (enc_replicate 249 0).symm, rfl, rfl, rfl,
    List.length_replicate, List.length_replicate, List.length_replicate,
    fun x hx => by rw [List.eq_of_mem_replicate hx]; omega, fun x hx => by rw [List.eq_of_mem_replicate hx]; omega,
    fun x hx => by rw [List.eq_of_mem_replicate hx]; omega⟩

theorem start_rem (data : List Byte) : rem data ⟨0, 0, 0⟩ = wordBits data := rfl

/-- The block loop gives the bytes of the blocks. -/
theorem blocks_plain {bs : List Block} (hw : Wf 0 State.start bs) (hok : Ok bs) (hh : AllHandled 0 State.start bs)
    {data : List Byte} {junk : List Bool} (hdata : wordBits data = encode State.start bs ++ junk) {buf : List Byte} (hbuf : buf.length = (plain bs).length) :
    ∃ st, blocks data data.length ⟨List.replicate 256 0, List.replicate 240 0, List.replicate 249 0, ⟨1, 1, 1⟩, buf, 0⟩ ⟨0, 0, 0⟩ = .ok st ∧
      st.buf = plain bs ∧ st.o = (plain bs).length := by
  refine blocks_ok ?_ bs data.length 0 State.start ⟨0, 0, 0⟩ junk _ [] buf hw hh (fun _ => ⟨start_inv data, ?_⟩) (fun _ => ?_) (fun _ => by simp) ?_ hok ?_
  · intro st s st' s' h1 h2 h3 h4 hi e
    exact ((block_sat (buf := st.buf) ⟨h1, h2, h3, rfl, h4, rfl⟩ hi).of_ok e).2.2
  · rw [start_rem, hdata]
  · rw [rem_length]; simp
  · exact start_is buf
  · simp [hbuf, plain]

/-- A length code without any symbol is refused. -/
theorem block_empty {data : List Byte} {sh : Bool} {al : Option (List Nat)} {a b c : Lengths} {ts : List Token} {pos : Nat} {ss : State}
    (hw : (Block.mk sh (.coded al a b c ts)).wf pos ss) (hz : ∀ l ∈ c.expand ss.lengths, l = 0) {s : Bs} {rest : List Bool}
    (h : At data s ((Block.mk sh (.coded al a b c ts)).bits ss ++ rest)) {st : St} {out room : List Byte} (hst : StIs st ss out room) :
    block data st s = .err := by
  obtain ⟨hsize, hshort, hbody⟩ := hw
  unfold Block.bits at h
  simp only [List.append_assoc] at h
  have htype : (Body.coded al a b c ts).type < 2 ^ 3 := by cases al <;> simp [Body.type]
  obtain ⟨s1, e1, h1⟩ := getValue_ok (by omega) h htype
  obtain ⟨s2, e2, h2⟩ := readSize_ok hshort h1
  unfold block
  rw [e1, R.ok_bind]
  simp only [e2, R.ok_bind]
  rw [if_pos (by cases al <;> simp [Body.type])]
  obtain ⟨wal, wa, wb, wc, wm, -, wt⟩ := hbody
  simp only [Body.bits, List.append_assoc] at h2
  obtain ⟨t, s3, e3, ha, h3⟩ := readAligned_ok wal a b c ts h2
  obtain ⟨s4, e4, h4⟩ := readCodeSizes_ok hst.s1 wa h3
  obtain ⟨s5, e5, h5⟩ := readCodeSizes_ok hst.s2 wb h4
  have la := wa.total
  have lb := wb.total
  have lc := wc.total
  have hl1 := hst.l1
  have hl2 := hst.l2
  have hl3 := hst.l3
  have sm : ∀ x ∈ a.expand ss.literals ++ b.expand ss.matches_, x < 256 := by
    intro x hx
    have := wm.1 x hx
    omega
  obtain ⟨tm, e6, hm⟩ := tree_ok (n := 256 + 240) (m := 16) (by omega) (by simp; omega) sm wm
  obtain ⟨s6, e7, h6⟩ := readCodeSizes_ok hst.s3 wc h5
  rw [hl1] at e4
  rw [hl2] at e5
  rw [hl3] at e7
  have e8 : Huffman.build (Huffman.new 249 16) (enc (c.expand ss.lengths)) = .err := by
    refine build_err _ _ fun hv => ?_
    obtain ⟨l, hl, hne⟩ := hv.2.2.1
    rw [lens_enc (fun x hx => by rw [hz x hx]; omega)] at hl
    exact hne (hz l hl)
  unfold codedBlock
  rw [e3, R.ok_bind]
  simp only [hst.main1, e4, R.ok_bind, hst.main2, e5, ← enc_append, e6, hst.match_, e7, e8, R.err_bind]

end Keramics.Lzx

namespace Keramics.Spec.Lzx
open Keramics.Spec.Huffman

instance (m : Nat) (l : List Nat) : Decidable (Valid m l) := by unfold Valid Kraft; infer_instance

instance (l : List Nat) (s : Nat) : Decidable (Coded l s) := by unfold Coded; infer_instance

instance (pre : List Nat) (it : Item) : Decidable (it.ok pre) := by cases it <;> unfold Item.ok <;> infer_instance

instance (old : List Nat) (d : Lengths) : Decidable (d.wf old) :=
  decidable_of_iff (d.pre.length = 20 ∧ Valid 15 d.pre ∧ (∀ it ∈ d.items, it.ok d.pre) ∧ (d.expand old).length = old.length)
    ⟨fun h => ⟨h.1, h.2.1, h.2.2.1, h.2.2.2⟩, fun h => ⟨h.1, h.2, h.3, h.4⟩⟩

instance (al : Option (List Nat)) (slot e : Nat) : Decidable (footerCoded al slot e) := by
  cases al <;> unfold footerCoded <;> infer_instance

instance (main len : List Nat) (al : Option (List Nat)) (t : Token) : Decidable (t.wf main len al) := by
  cases t <;> unfold Token.wf <;> infer_instance

instance (al : Option (List Nat)) : Decidable (alignedWf al) := by cases al <;> unfold alignedWf <;> infer_instance

instance (pos : Nat) (st : State) (b : Body) : Decidable (b.wf pos st) := by cases b <;> unfold Body.wf <;> infer_instance

instance (pos : Nat) (st : State) (b : Block) : Decidable (b.wf pos st) := by unfold Block.wf; infer_instance

instance decWf : (pos : Nat) → (st : State) → (bs : List Block) → Decidable (Wf pos st bs)
  | _, _, [] => isTrue trivial
  | pos, st, b :: bs => @instDecidableAnd _ _ _ (decWf (pos + (b.bits st).length) (b.body.next st) bs)

instance (pos : Nat) (st : State) (last : Prop) [Decidable last] (b : Body) : Decidable (Keramics.Lzx.Handled pos st last b) := by
  cases b <;> unfold Keramics.Lzx.Handled <;> infer_instance

instance decHandled : (pos : Nat) → (st : State) → (bs : List Block) → Decidable (Keramics.Lzx.AllHandled pos st bs)
  | _, _, [] => isTrue trivial
  | pos, st, b :: bs =>
    haveI : Decidable (bs = []) := match bs with | [] => isTrue rfl | _ :: _ => isFalse (by simp)
    @instDecidableAnd _ _ _ (decHandled (pos + (b.bits st).length) (b.body.next st) bs)

instance (l : List Byte) (o : Lz.Op) : Decidable (o.ok l) := by cases o <;> unfold Lz.Op.ok <;> infer_instance

instance decOk : (l : List Byte) → (os : List Lz.Op) → Decidable (Lz.Ok l os)
  | _, [] => isTrue trivial
  | l, o :: os => @instDecidableAnd _ _ _ (decOk (o.run l) os)

instance (bs : List Block) : Decidable (Ok bs) := by unfold Ok; infer_instance

end Keramics.Spec.Lzx

namespace Keramics.Props
open Keramics.Spec.Lzx

/-- What the code does with blocks it handles: call instructions are restored except in the last 6
bytes. -/
theorem lzx_decompress (bs : List Block) (hw : Wf 0 State.start bs) (hok : Ok bs) (hh : Lzx.AllHandled 0 State.start bs)
    (data : List Byte) (junk : List Bool) (hdata : wordBits data = encode State.start bs ++ junk) (buf : List Byte)
    (hbuf : buf.length = (plain bs).length) (h6 : 6 ≤ (plain bs).length) (hmax : (plain bs).length < 2 ^ 31) :
    Lzx.decompress data buf = .ok (calls 6 (plain bs).length 0 (plain bs), (plain bs).length) := by
  obtain ⟨st, e, e1, e2⟩ := Lzx.blocks_plain hw hok hh hdata hbuf
  unfold Lzx.decompress
  rw [e, R.ok_bind, e1, e2]
  unfold Lzx.adjust
  rw [R.require_true (by simp; omega)]
  have := Lzx.adjustLoop_ok (plain bs).length (plain bs).length [] (plain bs) (by simp) h6 (Nat.le_refl _)
  simp only [List.nil_append, List.length_nil] at this
  rw [this]
  rfl

/-- C65, decoding: a byte sequence whose 16-bit words are the encoding of well-formed blocks, followed by
anything, decompresses into a buffer of exactly their size to the bytes the blocks stand for, with call
instructions restored. The full property also has blocks without a length code, uncompressed blocks
whose header ends on a word boundary and odd ones before another block (`AllHandled` excludes these),
sizes below 6, and call instructions in the last 10 but not the last 6 bytes: see the `C65_violated`
theorems. -/
theorem C65_lzx_decode_partial (bs : List Block) (hw : Wf 0 State.start bs) (hok : Ok bs) (hh : Lzx.AllHandled 0 State.start bs)
    (data : List Byte) (junk : List Bool) (hdata : wordBits data = encode State.start bs ++ junk) (buf : List Byte)
    (hbuf : buf.length = (plain bs).length) (h6 : 6 ≤ (plain bs).length) (hmax : (plain bs).length < 2 ^ 31)
    (hcall : ∀ i, (plain bs).length ≤ i + 10 → i + 6 < (plain bs).length → (plain bs)[i]? ≠ some 0xe8) :
    Lzx.decompress data buf = .ok (denote bs, (denote bs).length) := by
  rw [lzx_decompress bs hw hok hh data junk hdata buf hbuf h6 hmax]
  unfold denote
  rw [Lzx.calls_length, Lzx.calls_tail _ 0 (by simp) (by simpa using hcall)]

/-- The letters `a` and `b`, with codes of two bits. -/
def letters : Lengths where
  pre := [0, 0, 0, 0, 0, 0, 0, 0, 0, 0, 0, 0, 0, 0, 0, 1, 0, 2, 2, 0]
  items := [.zerosLong 51, .zerosLong 46, .diff 15, .diff 15, .zerosLong 51, .zerosLong 51, .zerosLong 51, .zeros 4]

/-- Matches of slot 3 with a long length, and of slot 8 with length 3, with codes of two bits. -/
def slots : Lengths where
  pre := [0, 0, 0, 0, 0, 0, 0, 0, 0, 0, 0, 0, 0, 0, 0, 1, 0, 2, 2, 0]
  items := [.zeros 19, .zeros 12, .diff 15, .zerosLong 33, .diff 15, .zerosLong 51, .zerosLong 51, .zerosLong 51, .zerosLong 21]

/-- The lengths 4 + 9 and 9 + 9, with codes of one bit. -/
def longLengths : Lengths where
  pre := [0, 0, 0, 0, 0, 0, 0, 0, 0, 0, 0, 0, 0, 0, 0, 0, 1, 2, 2, 0]
  items := [.zeros 4, .diff 16, .zeros 4, .diff 16, .zerosLong 51, .zerosLong 51, .zerosLong 51, .zerosLong 51, .zerosLong 35]

/-- No lengths. -/
def noLengths : Lengths where
  pre := [0, 0, 0, 0, 0, 0, 0, 0, 0, 0, 0, 0, 0, 0, 0, 0, 0, 0, 1, 0]
  items := [.zerosLong 51, .zerosLong 51, .zerosLong 51, .zerosLong 51, .zerosLong 45]

/-- After `letters`: one bit less for `b`. -/
def letters2 : Lengths where
  pre := [2, 2, 0, 0, 0, 0, 0, 0, 0, 0, 0, 0, 0, 0, 0, 0, 0, 2, 2, 0]
  items := [.zerosLong 51, .zerosLong 46, .diff 0, .diff 1, .zerosLong 51, .zerosLong 51, .zerosLong 51, .zeros 4]

/-- After `slots`: slot 3 is gone. -/
def slots2 : Lengths where
  pre := [2, 0, 0, 0, 0, 0, 0, 0, 0, 0, 0, 0, 0, 0, 0, 0, 0, 2, 1, 0]
  items := [.zerosLong 51, .zeros 14, .diff 0, .zerosLong 51, .zerosLong 51, .zerosLong 51, .zerosLong 21]

/-- After `longLengths`: the same. -/
def longLengths2 : Lengths where
  pre := [1, 0, 0, 0, 0, 0, 0, 0, 0, 0, 0, 0, 0, 0, 0, 0, 0, 0, 2, 2]
  items := [.same 4 0, .diff 0, .same 4 0, .diff 0, .zerosLong 51, .zerosLong 51, .zerosLong 51, .zerosLong 51, .zerosLong 35]

/-- A block with a long match of distance 1, an aligned block with a match of slot 8, an uncompressed block with
a call instruction, and an odd uncompressed block at the end. -/
def lzxBlocks : List Block :=
  [⟨false, .coded none letters slots longLengths [.literal 97, .literal 98, .copy 3 0 7 4]⟩,
   ⟨false, .coded (some (List.replicate 8 3)) letters2 slots2 longLengths2 [.literal 97, .copy 8 1 1 0]⟩,
   ⟨false, .raw [false] ⟨1, 2, 3⟩ [0xe8, 0x20, 0, 0, 0, 1, 2, 3, 4, 5, 6, 7] []⟩,
   ⟨false, .raw (List.replicate 12 false) ⟨1, 2, 3⟩ [9, 8, 7] [0]⟩]

def lzxData : List Byte :=
  [0, 32, 0, 240, 0, 0, 0, 0, 0, 0, 34, 16, 254, 15, 255, 143, 192, 255, 0, 0, 0, 0, 0, 0, 2, 0, 65, 4, 13, 125, 255, 175, 225, 255, 0, 0, 0, 0, 0, 0, 0, 0, 32, 18, 3, 129, 255, 255, 247, 255, 64, 140, 70, 0, 109, 219, 32, 178, 0, 0, 0, 0, 0, 0, 34, 0, 254, 15, 255, 135, 240, 255, 0, 16, 0, 0, 0, 0, 0, 0, 8, 1, 212, 63, 239, 251, 32, 130, 0, 0, 0, 0, 0, 0, 0, 0, 140, 69, 191, 95, 252, 126, 44, 251, 24, 0, 1, 0, 0, 0, 2, 0, 0, 0, 3, 0, 0, 0, 232, 32, 0, 0, 0, 1, 2, 3, 4, 5, 6, 7, 0, 96, 0, 48, 1, 0, 0, 0, 2, 0, 0, 0, 3, 0, 0, 0, 9, 8, 7, 0]

example : Wf 0 State.start lzxBlocks ∧ Ok lzxBlocks ∧ Lzx.AllHandled 0 State.start lzxBlocks ∧
    wordBits lzxData = encode State.start lzxBlocks ++ [] ∧ (plain lzxBlocks).length = 34 ∧
    (∀ i < 34, 34 ≤ i + 10 → i + 6 < 34 → (plain lzxBlocks)[i]? ≠ some 0xe8) ∧
    Lzx.decompress lzxData (List.replicate 34 0) =
      .ok ([97, 98, 98, 98, 98, 98, 98, 98, 98, 98, 98, 98, 98, 98, 98, 97, 98, 98, 98, 232, 13, 0, 0, 0, 1, 2, 3, 4, 5, 6, 7, 9, 8, 7], 34) := by
  decide +kernel

/-- C65, arbitrary input: decompression of any bytes into any buffer does not panic, keeps the buffer's
length, reports at most that length, and leaves the bytes after the reported size as they were. -/
theorem C65_lzx_bounds (data buf : List Byte) :
    Lzx.decompress data buf ≠ .panic ∧
    ∀ out size, Lzx.decompress data buf = .ok (out, size) →
      out.length = buf.length ∧ size ≤ buf.length ∧ out.drop size = buf.drop size := by
  have h := Lzx.decompress_sat data buf
  exact ⟨h.ne_panic, fun out size e => h.of_ok e⟩

/-- C65 fails for blocks without a match of 9 or more bytes whose length code is left empty: data whose
first block is such a block is refused, whatever it holds and whatever the buffer. -/
theorem C65_violated_empty_lengths (short : Bool) (al : Option (List Nat)) (a b c : Lengths) (ts : List Token) (bs : List Block)
    (hw : Wf 0 State.start (⟨short, .coded al a b c ts⟩ :: bs)) (hz : ∀ l ∈ c.expand (List.replicate 249 0), l = 0)
    (data : List Byte) (junk : List Bool) (hdata : wordBits data = encode State.start (⟨short, .coded al a b c ts⟩ :: bs) ++ junk)
    (buf : List Byte) (hbuf : buf ≠ []) : Lzx.decompress data buf = .err := by
  have hl := Lzx.block_length hw.1
  have hlen := congrArg List.length hdata
  simp only [encode, List.length_append, Lzx.wordBits_length] at hlen
  have h0 : 0 < buf.length := List.length_pos_iff.2 hbuf
  obtain ⟨n, hn⟩ : ∃ n, data.length = n + 1 := ⟨data.length - 1, by omega⟩
  unfold Lzx.decompress
  rw [hn, Lzx.blocks]
  rw [if_pos (by simp only; omega), if_neg (by simp only; omega)]
  rw [Lzx.block_empty (rest := encode ((Body.coded al a b c ts).next State.start) bs ++ junk) hw.1 hz
    ⟨Lzx.start_inv data, by rw [Lzx.start_rem, hdata, encode, List.append_assoc]⟩ (Lzx.start_is buf)]
  rfl

/-- Six letters and no length code. -/
example :
    let bs := [Block.mk false (.coded none letters slots noLengths [.literal 97, .literal 98, .literal 97, .literal 98, .literal 97, .literal 98])]
    let data : List Byte := [0, 32, 0, 96, 0, 0, 0, 0, 0, 0, 34, 16, 254, 15, 255, 143, 192, 255, 0, 0, 0, 0, 0, 0, 2, 0, 65, 4, 13, 125, 255, 175, 225, 255, 0, 0, 0, 0, 0, 0, 0, 0, 16, 0, 247, 125, 100, 223, 64, 68]
    Wf 0 State.start bs ∧ Ok bs ∧ (∀ l ∈ noLengths.expand (List.replicate 249 0), l = 0) ∧
      wordBits data = encode State.start bs ++ List.replicate 6 false ∧ denote bs = [97, 98, 97, 98, 97, 98] := by
  decide +kernel

/-- C65 fails for data of less than 6 bytes: it is refused. -/
theorem C65_violated_short (bs : List Block) (hw : Wf 0 State.start bs) (hok : Ok bs) (hh : Lzx.AllHandled 0 State.start bs)
    (data : List Byte) (junk : List Bool) (hdata : wordBits data = encode State.start bs ++ junk) (buf : List Byte)
    (hbuf : buf.length = (plain bs).length) (h6 : (plain bs).length < 6) : Lzx.decompress data buf = .err := by
  obtain ⟨st, e, e1, e2⟩ := Lzx.blocks_plain hw hok hh hdata hbuf
  unfold Lzx.decompress
  rw [e, R.ok_bind, e1, e2]
  unfold Lzx.adjust
  rw [R.require_false (by simp; omega)]
  rfl

/-- An uncompressed block of two bytes. -/
example :
    let bs := [Block.mk false (.raw (List.replicate 12 false) ⟨1, 1, 1⟩ [1, 2] [])]
    let data : List Byte := [0, 96, 0, 32, 1, 0, 0, 0, 1, 0, 0, 0, 1, 0, 0, 0, 1, 2]
    Wf 0 State.start bs ∧ Ok bs ∧ Lzx.AllHandled 0 State.start bs ∧ wordBits data = encode State.start bs ++ [] ∧ denote bs = [1, 2] := by
  decide +kernel

/-- C65 fails for call instructions in the last 10 bytes: an encoder leaves those alone, and here the one
10 bytes before the end is changed. -/
theorem C65_violated_calls :
    let bs := [Block.mk false (.raw (List.replicate 12 false) ⟨1, 1, 1⟩ [1, 2, 0xe8, 16, 0, 0, 0, 3, 4, 5, 6, 7] [])]
    let data : List Byte := [0, 96, 0, 192, 1, 0, 0, 0, 1, 0, 0, 0, 1, 0, 0, 0, 1, 2, 232, 16, 0, 0, 0, 3, 4, 5, 6, 7]
    Wf 0 State.start bs ∧ Ok bs ∧ wordBits data = encode State.start bs ∧
      denote bs = [1, 2, 0xe8, 16, 0, 0, 0, 3, 4, 5, 6, 7] ∧
      Lzx.decompress data (List.replicate 12 0) = .ok ([1, 2, 0xe8, 14, 0, 0, 0, 3, 4, 5, 6, 7], 12) := by
  decide +kernel

/-- C65 fails for an uncompressed block whose header ends on a word boundary: the 16 bits of padding are
taken for the first recent distance, and the bytes of the block are wrong. -/
theorem C65_violated_padding :
    let bs := [Block.mk false (.coded none letters slots longLengths [.literal 97, .literal 97, .literal 97, .literal 97, .copy 3 0 7 4]),
      Block.mk false (.raw (List.replicate 16 false) ⟨1, 1, 1⟩ [1, 2, 3, 4, 5, 6, 7, 8] [])]
    let data : List Byte := [1, 32, 0, 16, 0, 0, 0, 0, 0, 0, 34, 16, 254, 15, 255, 143, 192, 255, 0, 0, 0, 0, 0, 0, 2, 0, 65, 4, 13, 125, 255, 175, 225, 255, 0, 0, 0, 0, 0, 0, 0, 0, 32, 18, 3, 129, 255, 255, 247, 255, 70, 128, 8, 0, 0, 0, 1, 0, 0, 0, 1, 0, 0, 0, 1, 0, 0, 0, 1, 2, 3, 4, 5, 6, 7, 8]
    Wf 0 State.start bs ∧ Ok bs ∧ wordBits data = encode State.start bs ∧
      denote bs = List.replicate 17 97 ++ [1, 2, 3, 4, 5, 6, 7, 8] ∧
      Lzx.decompress data (List.replicate 25 0) = .ok (List.replicate 17 97 ++ [0, 0, 1, 2, 3, 4, 5, 6], 25) := by
  decide +kernel

/-- C65 fails for an odd uncompressed block before another block: the byte after it is not skipped, and
here the data is refused. -/
theorem C65_violated_odd :
    let bs := [Block.mk false (.raw (List.replicate 12 false) ⟨1, 1, 1⟩ [1, 2, 3] [0]),
      Block.mk false (.raw (List.replicate 12 false) ⟨1, 1, 1⟩ [1, 2, 3, 4, 5, 6, 7, 8] [])]
    let data : List Byte := [0, 96, 0, 48, 1, 0, 0, 0, 1, 0, 0, 0, 1, 0, 0, 0, 1, 2, 3, 0, 0, 96, 0, 128, 1, 0, 0, 0, 1, 0, 0, 0, 1, 0, 0, 0, 1, 2, 3, 4, 5, 6, 7, 8]
    Wf 0 State.start bs ∧ Ok bs ∧ wordBits data = encode State.start bs ∧ denote bs = [1, 2, 3, 1, 2, 3, 4, 5, 6, 7, 8] ∧
      Lzx.decompress data (List.replicate 11 0) = .err := by
  decide +kernel

/-- C65: data whose first block is of no known type (0 and 4 to 7 in its first three bits) is refused. -/
theorem C65_type (type : Nat) (h8 : type < 8) (ht : type = 0 ∨ 4 ≤ type) (data : List Byte) (rest : List Bool) (hdata : wordBits data = Spec.Huffman.bits 3 type ++ rest)
    (buf : List Byte) (hbuf : buf ≠ []) : Lzx.decompress data buf = .err := by
  have hl := congrArg List.length hdata
  rw [List.length_append, Bzip2.bits_length, Lzx.wordBits_length] at hl
  have h0 : 0 < buf.length := List.length_pos_iff.2 hbuf
  obtain ⟨n, hn⟩ : ∃ n, data.length = n + 1 := ⟨data.length - 1, by omega⟩
  obtain ⟨s1, e1, h1⟩ := Lzx.getValue_ok (data := data) (s := ⟨0, 0, 0⟩) (by omega) ⟨Lzx.start_inv data, by rw [Lzx.start_rem, hdata]⟩ (show type < 2 ^ 3 by omega)
  unfold Lzx.decompress
  rw [hn, Lzx.blocks, if_pos (by simp only; omega), if_neg (by simp only; omega)]
  unfold Lzx.block
  rw [e1, R.ok_bind]
  simp only
  have h2 := Lzx.readSize_sat (Lzx.After.refl h1.1)
  cases hr : Lzx.readSize data s1 with
  | panic => exact absurd hr h2.ne_panic
  | err => rfl
  | ok r =>
    rw [R.ok_bind, if_neg (by omega), if_neg (by omega)]
    rfl

/-- C65: data whose first block is uncompressed and has a recent distance of 0 is refused. -/
theorem C65_recent (size r0 r1 r2 : Nat) (hs : size < 65536) (h0 : r0 < 2 ^ 32) (h1 : r1 < 2 ^ 32) (h2 : r2 < 2 ^ 32) (hz : r0 = 0 ∨ r1 = 0 ∨ r2 = 0)
    (data : List Byte) (pad rest : List Bool) (hpad : pad.length = 12)
    (hdata : wordBits data = Spec.Huffman.bits 3 3 ++ (Spec.Huffman.bits 1 0 ++ (Spec.Huffman.bits 16 size ++ (pad ++ (wordBits (le 4 r0 ++ le 4 r1 ++ le 4 r2) ++ rest)))))
    (buf : List Byte) (hbuf : buf ≠ []) : Lzx.decompress data buf = .err := by
  have hl := congrArg List.length hdata
  simp only [List.length_append, Bzip2.bits_length, Lzx.wordBits_length, Lzx.le_length, hpad] at hl
  have hb0 : 0 < buf.length := List.length_pos_iff.2 hbuf
  obtain ⟨n, hn⟩ : ∃ n, data.length = n + 1 := ⟨data.length - 1, by omega⟩
  obtain ⟨s1, e1, a1⟩ := Lzx.getValue_ok (data := data) (s := ⟨0, 0, 0⟩) (by omega) ⟨Lzx.start_inv data, by rw [Lzx.start_rem, hdata]⟩ (show 3 < 2 ^ 3 by omega)
  obtain ⟨s2, e2, a2⟩ := Lzx.getValue_ok (by omega) a1 (show 0 < 2 ^ 1 by omega)
  obtain ⟨s, e3, a3⟩ := Lzx.getValue_ok (by omega) a2 (show size < 2 ^ 16 by omega)
  obtain ⟨hi, hrem⟩ := a3
  have hm := congrArg List.length hrem
  simp only [Lzx.rem_length, List.length_append, Bzip2.bits_length, Lzx.wordBits_length, Lzx.le_length, hpad] at hm
  have hsn : s.n = 12 := by
    have := hi.small
    omega
  unfold Lzx.rem at hrem
  obtain ⟨-, h⟩ := List.append_inj hrem (by simp [hsn, hpad])
  obtain ⟨x', hx, -⟩ := Lzx.wordBits_prefix _ _ _ (by simp) h
  have hoff := hi.off
  have hd : data = data.take s.off ++ (le 4 r0 ++ (le 4 r1 ++ (le 4 r2 ++ x'))) := by
    conv_lhs => rw [← List.take_append_drop s.off data, hx]
    simp only [List.append_assoc]
  have hlen := congrArg List.length hx
  simp only [List.length_drop, List.length_append, Lzx.le_length] at hlen
  have u0 : u32le data s.off = .ok r0 := Lzx.u32le_at hd (by simp; omega) h0
  have u1 : u32le data (s.off + 4) = .ok r1 := Lzx.u32le_at (pre := data.take s.off ++ le 4 r0) (by rw [List.append_assoc]; exact hd) (by simp; omega) h1
  have u2 : u32le data (s.off + 8) = .ok r2 := Lzx.u32le_at (pre := data.take s.off ++ le 4 r0 ++ le 4 r1) (by rw [List.append_assoc, List.append_assoc]; exact hd) (by simp; omega) h2
  unfold Lzx.decompress
  rw [hn, Lzx.blocks, if_pos (by simp only; omega), if_neg (by simp only; omega)]
  unfold Lzx.block
  rw [e1, R.ok_bind]
  simp only
  have es : Lzx.readSize data s1 = .ok (size, s) := by
    unfold Lzx.readSize
    rw [e2, R.ok_bind]
    exact e3
  rw [es, R.ok_bind]
  simp only
  rw [if_neg (by decide), if_pos trivial]
  unfold Lzx.rawBlock
  rw [R.subU_ok (by omega), R.ok_bind, R.require_true (by omega), R.ok_bind, u0, R.ok_bind, u1, R.ok_bind, u2, R.ok_bind]
  by_cases z0 : r0 = 0
  · rw [R.require_false (by omega)]; rfl
  · rw [R.require_true z0, R.ok_bind]
    by_cases z1 : r1 = 0
    · rw [R.require_false (by omega)]; rfl
    · rw [R.require_true z1, R.ok_bind, R.require_false (by omega)]; rfl

example : wordBits [0, 0xa0, 0, 0] = Spec.Huffman.bits 3 5 ++ List.replicate 29 false := by decide +kernel

example : wordBits [0, 0x60, 0, 0x20, 1, 0, 0, 0, 0, 0, 0, 0, 1, 0, 0, 0, 1, 2] = Spec.Huffman.bits 3 3 ++ (Spec.Huffman.bits 1 0 ++ (Spec.Huffman.bits 16 2 ++
    (List.replicate 12 false ++ (wordBits (le 4 1 ++ le 4 0 ++ le 4 1) ++ Spec.Huffman.bits 16 0x0201)))) := by decide +kernel

end Keramics.Props
