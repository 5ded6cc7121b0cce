import Verif.Model.Digest
import Verif.Spec.Digest
import Mathlib.Tactic.Ring
import Mathlib.Tactic.Linarith

namespace Keramics.Digest
open Keramics.Spec

/-- What is needed about the parameters: the compression function is what `transform` computes
inside its bounds, and the constants fit together. -/
structure Alg.Ok {H : Type} (A : Alg H) (compress : H → List Byte → H)
    (lengthField : Nat → List Byte) (L : Nat) : Prop where
  transform : ∀ h data off, off + A.blockSize ≤ data.length →
    A.transform h data off = .ok (compress h ((data.drop off).take A.blockSize))
  limit : A.padLimit + L = A.blockSize
  L8 : 8 ≤ L
  big : L + 1 ≤ A.blockSize
  sizeLen : ∀ n, (A.sizeBytes n).length = 8
  field : ∀ n, n < 2 ^ 64 → lengthField n = List.replicate (L - 8) 0 ++ A.sizeBytes n

variable {H : Type} {A : Alg H} {compress : H → List Byte → H}

theorem foldl_congr' {α β} {f g : β → α → β} {l : List α} {b : β}
    (h : ∀ b, ∀ a ∈ l, f b a = g b a) : l.foldl f b = l.foldl g b := by
  induction l generalizing b with
  | nil => rfl
  | cons x xs ih =>
    simp only [List.foldl_cons]
    rw [h b x (List.mem_cons_self ..)]
    exact ih (fun b a ha => h b a (List.mem_cons_of_mem _ ha))

theorem foldBlocks_append (B : Nat) (hB : 0 < B) (h : H) (a b : List Byte) (ha : a.length % B = 0) :
    foldBlocks compress B h (a ++ b) = foldBlocks compress B (foldBlocks compress B h a) b := by
  obtain ⟨n, hn⟩ := Nat.dvd_of_mod_eq_zero ha
  have h1 : (a ++ b).length / B = n + b.length / B := by
    rw [List.length_append, hn, Nat.mul_add_div hB]
  have h2 : a.length / B = n := by rw [hn, Nat.mul_div_cancel_left _ hB]
  unfold foldBlocks
  rw [h1, h2, List.range_add, List.foldl_append, List.foldl_map]
  have e1 : (List.range n).foldl
      (fun h i => compress h (((a ++ b).drop (i * B)).take B)) h
      = (List.range n).foldl (fun h i => compress h ((a.drop (i * B)).take B)) h := by
    apply foldl_congr'
    intro h i hi
    have hi := List.mem_range.mp hi
    have : i * B + B ≤ a.length := by rw [hn]; nlinarith
    rw [List.drop_append_of_le_length (by omega), List.take_append_of_le_length (by simp; omega)]
  rw [e1]
  apply foldl_congr'
  intro h i _
  have : (n + i) * B = a.length + i * B := by rw [hn]; ring
  rw [this, ← List.drop_drop, List.drop_left]

theorem foldBlocks_one (B : Nat) (hB : 0 < B) (h : H) (a : List Byte) (ha : a.length = B) :
    foldBlocks compress B h a = compress h a := by
  unfold foldBlocks
  rw [ha, Nat.div_self hB]
  simp [List.range_succ, ← ha]

theorem foldBlocks_nil (B : Nat) (h : H) : foldBlocks compress B h [] = h := by
  simp [foldBlocks]

/-- Invariant: the context represents `msg`. -/
structure Inv (A : Alg H) (compress : H → List Byte → H) (c : Ctx H) (msg : List Byte) : Prop where
  hash : c.hashValues = foldBlocks compress A.blockSize A.init (msg.take c.numberOfBytesHashed)
  mult : c.numberOfBytesHashed % A.blockSize = 0
  len : msg.length = c.numberOfBytesHashed + c.blockOffset
  off : c.blockOffset ≤ A.blockSize
  blk : c.block.take c.blockOffset = msg.drop c.numberOfBytesHashed
  size : c.block.length = A.blockSize * 2

theorem Inv.new : Inv A compress (Ctx.new A) [] :=
  ⟨by simp [Ctx.new, foldBlocks_nil], by simp [Ctx.new], by simp [Ctx.new], by simp [Ctx.new],
   by simp [Ctx.new], by simp [Ctx.new]⟩

theorem take_set {α} (l : List α) (n : Nat) (v : α) (h : n < l.length) :
    (l.set n v).take (n + 1) = l.take n ++ [v] := by
  rw [List.take_set, List.take_add_one]
  simp only [List.getElem?_eq_getElem h, Option.toList_some]
  rw [List.set_append_right _ _ (by simp)]
  simp [Nat.min_eq_left (Nat.le_of_lt h)]

theorem fillBlock_spec (B : Nat) (data block : List Byte) (off : Nat) (hoff : off ≤ B)
    (hlen : B ≤ block.length) :
    ∃ block', fillBlock B data block off
        = .ok (block', off + min (B - off) data.length, data.drop (B - off)) ∧
      block'.length = block.length ∧
      block'.take (off + min (B - off) data.length) = block.take off ++ data.take (B - off) := by
  induction data generalizing block off with
  | nil => exact ⟨block, by simp [fillBlock], rfl, by simp⟩
  | cons d ds ih =>
    unfold fillBlock
    by_cases h : off < B
    · rw [if_pos h, R.set_ok (by omega), R.ok_bind]
      obtain ⟨b', h1, h2, h3⟩ := ih (block.set off d) (off + 1) (by omega) (by simpa using hlen)
      have e1 : off + 1 + min (B - (off + 1)) ds.length
          = off + min (B - off) (d :: ds).length := by
        simp only [List.length_cons]; omega
      have e2 : (d :: ds).drop (B - off) = ds.drop (B - (off + 1)) := by
        rw [show B - off = B - (off + 1) + 1 by omega, List.drop_succ_cons]
      have e3 : (d :: ds).take (B - off) = d :: ds.take (B - (off + 1)) := by
        rw [show B - off = B - (off + 1) + 1 by omega, List.take_succ_cons]
      rw [e1] at h1 h3
      refine ⟨b', by rw [h1, e2], by rw [h2]; simp, ?_⟩
      rw [h3, e3, take_set _ _ _ (by omega)]; simp
    · have : B - off = 0 := by omega
      rw [if_neg h]
      exact ⟨block, by simp [this], rfl, by simp [this]⟩

theorem bufferRest_spec (data block : List Byte) (off : Nat)
    (hlen : off + data.length ≤ block.length) :
    ∃ block', bufferRest data block off = .ok (block', off + data.length) ∧
      block'.length = block.length ∧
      block'.take (off + data.length) = block.take off ++ data := by
  induction data generalizing block off with
  | nil => exact ⟨block, by simp [bufferRest], rfl, by simp⟩
  | cons d ds ih =>
    simp only [List.length_cons] at hlen
    unfold bufferRest
    rw [R.set_ok (by omega), R.ok_bind]
    obtain ⟨b', h1, h2, h3⟩ := ih (block.set off d) (off + 1) (by simp; omega)
    have e1 : off + 1 + ds.length = off + (d :: ds).length := by simp only [List.length_cons]; omega
    rw [e1] at h1 h3
    refine ⟨b', h1, by rw [h2]; simp, ?_⟩
    rw [h3, take_set _ _ _ (by omega)]; simp

theorem wholeBlocks_spec {lf : Nat → List Byte} {L : Nat} (ok : A.Ok compress lf L)
    (data pre : List Byte) (n : Nat) (hn : pre.length = n) (hm : n % A.blockSize = 0)
    (hsz : n + data.length < 2 ^ 61) :
    ∃ k, k % A.blockSize = 0 ∧ k ≤ data.length ∧ data.length - k ≤ A.blockSize ∧
      wholeBlocks A (foldBlocks compress A.blockSize A.init pre) n data
      = .ok (foldBlocks compress A.blockSize A.init (pre ++ data.take k), n + k, data.drop k) := by
  induction hl : data.length using Nat.strongRecOn generalizing data pre n with
  | ind m ih =>
    have hB := A.blockSize_pos
    rw [wholeBlocks]
    by_cases h : A.blockSize < data.length
    · rw [if_pos h, ok.transform _ _ _ (by omega), R.ok_bind, R.addU_ok (by omega), R.ok_bind]
      have e : compress (foldBlocks compress A.blockSize A.init pre)
          ((data.drop 0).take A.blockSize)
          = foldBlocks compress A.blockSize A.init (pre ++ data.take A.blockSize) := by
        rw [foldBlocks_append _ hB _ _ _ (by rw [hn]; exact hm), foldBlocks_one _ hB _ (data.take _)]
        · simp
        · simp; omega
      rw [e]
      obtain ⟨k, h1, h2, h3, h4⟩ := ih (data.drop A.blockSize).length
        (by simp only [List.length_drop]; omega) (data.drop A.blockSize)
        (pre ++ data.take A.blockSize)
        (n + A.blockSize) (by rw [List.length_append, hn, List.length_take]; omega)
        (by rw [Nat.add_mod_right]; exact hm)
        (by rw [List.length_drop]; omega) rfl
      rw [List.length_drop] at h2 h3
      refine ⟨A.blockSize + k, by rw [Nat.add_mod_left]; exact h1, by omega, by omega, ?_⟩
      rw [h4, List.take_add, List.drop_drop, List.append_assoc]
      simp only [Nat.add_assoc]
    · rw [if_neg h]
      exact ⟨0, by simp, by omega, by omega, by simp⟩

theorem update_spec {lf : Nat → List Byte} {L : Nat} (ok : A.Ok compress lf L)
    (c : Ctx H) (msg data : List Byte) (h : Inv A compress c msg)
    (hsz : (msg ++ data).length < 2 ^ 61) :
    ∃ c', c.update A data = .ok c' ∧ Inv A compress c' (msg ++ data) := by
  obtain ⟨hv, n, off, block⟩ := c
  have hB := A.blockSize_pos
  have hhash := h.hash; have hmult := h.mult; have hlen := h.len; have hoff := h.off
  have hblk := h.blk; have hsize := h.size
  simp only at hhash hmult hlen hoff hblk hsize
  rw [List.length_append] at hsz
  -- the general tail: empty buffer, `pre` hashed
  have tail : ∀ (hv' : H) (n' : Nat) (block' pre data' : List Byte),
      hv' = foldBlocks compress A.blockSize A.init pre → pre.length = n' →
      n' % A.blockSize = 0 → block'.length = A.blockSize * 2 → pre ++ data' = msg ++ data →
      ∃ c', (do
        let (h, n, data) ← wholeBlocks A hv' n' data'
        let (block, off) ← bufferRest data block' 0
        pure (⟨h, n, off, block⟩ : Ctx H)) = .ok c' ∧ Inv A compress c' (msg ++ data) := by
    intro hv' n' block' pre data' h1 h2 h3 h4 h5
    have hl5 := congrArg List.length h5
    simp only [List.length_append] at hl5
    obtain ⟨k, k1, k2, k3, k4⟩ := wholeBlocks_spec ok data' pre n' h2 h3 (by omega)
    subst h1
    obtain ⟨b', g1, g2, g3⟩ := bufferRest_spec (data'.drop k) block' 0 (by simp; omega)
    simp only [k4, R.ok_bind, g1, R.pure_eq]
    refine ⟨_, rfl, ?_⟩
    have e : msg ++ data = (pre ++ data'.take k) ++ data'.drop k := by
      rw [List.append_assoc, List.take_append_drop, h5]
    have el : (pre ++ data'.take k).length = n' + k := by
      rw [List.length_append, h2, List.length_take]; omega
    constructor
    · simp only [e]; rw [← el, List.take_left]
    · simp only; rw [Nat.add_mod, h3, k1]; simp
    · simp only [e, List.length_append, List.length_take, List.length_drop]; omega
    · simp only [List.length_drop]; omega
    · simp only [g3, e]; rw [← el, List.drop_left]; simp
    · simp only [g2, h4]
  by_cases h0 : off > 0
  · obtain ⟨b', f1, f2, f3⟩ := fillBlock_spec A.blockSize data block off hoff (by omega)
    unfold Ctx.update
    simp only [h0, if_true, f1, R.ok_bind]
    by_cases hfull : off + min (A.blockSize - off) data.length = A.blockSize
    · simp only [hfull, if_true]
      rw [ok.transform _ _ _ (by omega), R.ok_bind, R.addU_ok (by omega), R.ok_bind]
      simp only [R.pure_eq, R.ok_bind]
      have hd : A.blockSize - off ≤ data.length := by omega
      apply tail _ _ _ (msg ++ data.take (A.blockSize - off))
      · subst hhash
        rw [hfull] at f3
        simp only [List.drop_zero, f3, hblk]
        conv => rhs; rw [← List.take_append_drop n msg, List.append_assoc]
        rw [foldBlocks_append (compress := compress) _ hB _ _ _
          (by rw [List.length_take, hlen]; simpa using hmult)]
        rw [foldBlocks_one _ hB _ (msg.drop n ++ _)]
        simp only [List.length_append, List.length_drop, List.length_take]; omega
      · simp only [List.length_append, List.length_take]; omega
      · rw [Nat.add_mod_right]; exact hmult
      · omega
      · rw [List.append_assoc, List.take_append_drop]
    · simp only [hfull, if_false, R.pure_eq, R.ok_bind]
      have hdrop : data.drop (A.blockSize - off) = [] := by
        apply List.drop_eq_nil_of_le; omega
      have htake : data.take (A.blockSize - off) = data := List.take_of_length_le (by omega)
      have hmin : min (A.blockSize - off) data.length = data.length := by omega
      rw [htake, hmin] at f3
      rw [hdrop, hmin, wholeBlocks, if_neg (by simp)]
      simp only [R.ok_bind, bufferRest]
      refine ⟨_, rfl, ?_⟩
      constructor
      · simp only [hhash]; rw [List.take_append_of_le_length (by omega)]
      · exact hmult
      · simp only [List.length_append]; omega
      · simp only; omega
      · simp only [f3, hblk]; rw [List.drop_append_of_le_length (by omega)]
      · simp only; omega
  · have : off = 0 := by omega
    subst this
    unfold Ctx.update
    simp only [h0, if_false, R.pure_eq, R.ok_bind]
    apply tail _ _ _ msg
    · rw [hhash, List.take_of_length_le (by omega)]
    · omega
    · exact hmult
    · omega
    · rfl

theorem updates_spec {lf : Nat → List Byte} {L : Nat} (ok : A.Ok compress lf L)
    (chunks : List (List Byte)) (c : Ctx H) (msg : List Byte) (h : Inv A compress c msg)
    (hsz : (msg ++ chunks.flatten).length < 2 ^ 61) :
    ∃ c', chunks.foldlM (Ctx.update A) c = .ok c' ∧ Inv A compress c' (msg ++ chunks.flatten) := by
  induction chunks generalizing c msg with
  | nil => exact ⟨c, rfl, by simpa using h⟩
  | cons x xs ih =>
    rw [List.flatten_cons, ← List.append_assoc] at *
    obtain ⟨c1, h1, h2⟩ := update_spec ok c msg x h
      (by rw [List.length_append] at hsz; omega)
    obtain ⟨c2, h3, h4⟩ := ih c1 (msg ++ x) h2 hsz
    exact ⟨c2, by rw [List.foldlM_cons, h1]; exact h3, h4⟩

theorem finalize_spec {lf : Nat → List Byte} {L : Nat} (ok : A.Ok compress lf L)
    (c : Ctx H) (msg : List Byte) (h : Inv A compress c msg) (hsz : msg.length < 2 ^ 61) :
    c.finalize A = .ok (mdHash compress A.blockSize A.init A.output lf msg, Ctx.new A) := by
  obtain ⟨hv, n, off, block⟩ := c
  have hB := A.blockSize_pos
  have hhash := h.hash; have hmult := h.mult; have hlen := h.len; have hoff := h.off
  have hblk := h.blk; have hsize := h.size
  simp only at hhash hmult hlen hoff hblk hsize
  have hlim := ok.limit; have hL := ok.L8; have hbig := ok.big
  -- number of padding blocks
  generalize hf : (if off ≥ A.padLimit then 2 else 1) = factor
  have hfac : off + 1 + L ≤ A.blockSize * factor ∧ A.blockSize * factor < off + 1 + L + A.blockSize
      ∧ A.blockSize * factor ≤ A.blockSize * 2 := by
    split at hf <;> subst hf <;> omega
  obtain ⟨hf1, hf2, hf3⟩ := hfac
  have hsl := ok.sizeLen (8 * msg.length)
  unfold Ctx.finalize
  simp only [hf]
  rw [R.addU_ok (by omega), R.ok_bind, R.mulU_ok (by omega), R.ok_bind, R.subU_ok (by omega),
    R.ok_bind, R.set_ok (by omega), R.ok_bind,
    R.splice_ok (by omega) (by simp; omega) (by simp), R.ok_bind]
  rw [show (n + off) * 8 = 8 * msg.length by omega]
  -- the padded tail
  have hmid : (block.set off 0x80).take (off + 1) = msg.drop n ++ [0x80] := by
    rw [take_set _ _ _ (by omega), hblk]
  rw [hmid]
  generalize hz : List.replicate (A.blockSize * factor - 8 - (off + 1)) (0 : Byte) = zs
  generalize hr : (block.set off 0x80).drop (A.blockSize * factor - 8) = rest
  have hzl : zs.length = A.blockSize * factor - 8 - (off + 1) := by rw [← hz]; simp
  have hrl : rest.length = A.blockSize * 2 - (A.blockSize * factor - 8) := by
    rw [← hr, List.length_drop, List.length_set, hsize]
  have hdl : (msg.drop n).length = off := by rw [List.length_drop]; omega
  have hpl : (msg.drop n ++ [0x80] ++ zs).length = A.blockSize * factor - 8 := by
    rw [List.length_append, hzl, List.length_append, hdl]; simp; omega
  rw [R.splice_ok (by omega) (by rw [List.length_append, hpl, hrl]; omega) (by rw [hsl]; omega),
    R.ok_bind]
  rw [← hpl, List.take_left]
  generalize htail : msg.drop n ++ [0x80] ++ zs ++ A.sizeBytes (8 * msg.length) = tl
  generalize hjunk : (msg.drop n ++ [0x80] ++ zs ++ rest).drop (A.blockSize * factor) = junk
  have htl : tl.length = A.blockSize * factor := by
    rw [← htail, List.length_append, hpl, hsl]; omega
  have hjl : junk.length = A.blockSize * 2 - A.blockSize * factor := by
    rw [← hjunk, List.length_drop, List.length_append, hpl, hrl]; omega
  -- transform loop
  have hloop : ∀ k ≤ factor, (List.range k).foldlM
      (fun h i => A.transform h (tl ++ junk) (i * A.blockSize)) hv
      = .ok ((List.range k).foldl
          (fun h i => compress h ((tl.drop (i * A.blockSize)).take A.blockSize)) hv) := by
    intro k hk
    induction k with
    | zero => rfl
    | succ k ih =>
      have : k * A.blockSize + A.blockSize ≤ A.blockSize * factor := by nlinarith
      rw [List.range_succ, List.foldlM_append, ih (by omega), R.ok_bind, List.foldl_append]
      simp only [List.foldlM_cons, List.foldlM_nil, List.foldl_cons, List.foldl_nil]
      rw [ok.transform _ _ _ (by rw [List.length_append]; omega)]
      simp only [R.ok_bind, R.pure_eq, R.ok.injEq]
      rw [List.drop_append_of_le_length (by omega), List.take_append_of_le_length (by simp; omega)]
  rw [hloop factor (Nat.le_refl _)]
  simp only [R.ok_bind, R.pure_eq, R.ok.injEq, Prod.mk.injEq]
  constructor
  · unfold mdHash
    congr 1
    have hfld := ok.field (8 * msg.length) (by omega)
    have hfl : (lf (8 * msg.length)).length = L := by
      rw [hfld, List.length_append, hsl]; simp; omega
    have hzeros : (A.blockSize - (msg.length + 1 + (lf (8 * msg.length)).length) % A.blockSize)
        % A.blockSize = A.blockSize * factor - (off + 1 + L) := by
      rw [hfl, hlen]
      obtain ⟨q, hq⟩ := Nat.dvd_of_mod_eq_zero hmult
      rw [hq, show A.blockSize * q + off + 1 + L = off + 1 + L + A.blockSize * q by ring,
        Nat.add_mul_mod_self_left]
      split at hf <;> subst hf
      · -- two blocks
        by_cases he : off + 1 + L = A.blockSize * 2
        · rw [he, Nat.mul_mod_right]; simp
        · have hm : (off + 1 + L) % A.blockSize = off + 1 + L - A.blockSize := by
            rw [Nat.mod_eq_sub_mod (by omega), Nat.mod_eq_of_lt (by omega)]
          rw [hm, Nat.mod_eq_of_lt (by omega)]; omega
      · by_cases he : off + 1 + L = A.blockSize
        · rw [he, Nat.mod_self]; simp
        · rw [Nat.mod_eq_of_lt (a := off + 1 + L) (by omega), Nat.mod_eq_of_lt (by omega)]; omega
    have hpad : mdPad A.blockSize (lf (8 * msg.length)) msg = msg.take n ++ tl := by
      unfold mdPad
      simp only
      rw [hzeros, hfld, ← htail, ← hz,
        show A.blockSize * factor - 8 - (off + 1)
          = (A.blockSize * factor - (off + 1 + L)) + (L - 8) by omega,
        ← List.replicate_append_replicate]
      simp only [List.append_assoc]
      rw [← List.append_assoc (msg.take n) (msg.drop n), List.take_append_drop]
      rfl
    rw [hpad, foldBlocks_append _ hB _ _ _ (by rw [List.length_take, hlen]; simpa using hmult),
      ← hhash]
    conv => rhs; unfold foldBlocks
    rw [htl, Nat.mul_div_cancel_left _ hB]
  · unfold Ctx.new
    congr 2
    rw [List.length_append, htl, hjl]; omega

/-- The contract of a digest context over its whole life. -/
theorem chunked {lf : Nat → List Byte} {L : Nat} (ok : A.Ok compress lf L)
    (chunks : List (List Byte)) (hsz : chunks.flatten.length < 2 ^ 61) :
    (do let c ← chunks.foldlM (Ctx.update A) (Ctx.new A); c.finalize A)
      = .ok (mdHash compress A.blockSize A.init A.output lf chunks.flatten, Ctx.new A) := by
  obtain ⟨c, h1, h2⟩ := updates_spec ok chunks (Ctx.new A) [] Inv.new (by simpa using hsz)
  rw [h1, R.ok_bind]
  exact finalize_spec ok c _ h2 hsz

end Keramics.Digest
