import Verif.Lemmas.Huffman

/-!
# C26 Huffman decoding inverts canonical Huffman encoding

The bit source is arbitrary: any state type with any function for `get_value(1)`.
-/

namespace Keramics.Props
open Keramics.Spec.Huffman Keramics.Huffman

/-- The code lengths a list of bytes gives, one byte per symbol. -/
abbrev codeLengths (sizes : List Byte) : List Nat := sizes.map (·.toNat)

/-- Decoding as many symbols as asked for, one after the other. -/
def decodeMany {σ : Type} (getBit : σ → R (Nat × σ)) (t : Tree) : Nat → σ → R (List Nat × σ)
  | 0, st => .ok ([], st)
  | n + 1, st => do
    let (s, st) ← decodeSymbol getBit t st
    let (ss, st) ← decodeMany getBit t n st
    pure (s :: ss, st)

/-- C26, acceptance: building a tree with room for the symbols succeeds exactly when the lengths are
within the limit, some symbol has a code and Kraft's inequality holds (the code is not
over-subscribed). Otherwise it is an error, never a panic. -/
theorem C26_build (n m : Nat) (hn : n ≤ 65535) (sizes : List Byte) (hs : sizes.length ≤ n) :
    ((∃ t, build (new n m) sizes = .ok t) ↔ Valid m (codeLengths sizes)) ∧
    build (new n m) sizes ≠ .panic := by
  by_cases hv : Valid m (codeLengths sizes)
  · obtain ⟨t, h, _⟩ := build_ok (new n m) sizes (by omega) (by simpa [new] using hs) hv
    exact ⟨⟨fun _ => hv, fun _ => ⟨t, h⟩⟩, by rw [h]; simp⟩
  · have h := build_err (new n m) sizes (fun h => hv h.2)
    exact ⟨⟨fun ⟨t, ht⟩ => by rw [h] at ht; simp at ht, fun h' => absurd h' hv⟩, by rw [h]; simp⟩

theorem isTree_of_build {n m : Nat} (hn : n ≤ 65535) {sizes : List Byte} (hs : sizes.length ≤ n)
    {t : Tree} (ht : build (new n m) sizes = .ok t) : IsTree t (codeLengths sizes) := by
  have hv := (C26_build n m hn sizes hs).1.mp ⟨t, ht⟩
  obtain ⟨t', h, _, _, h'⟩ := build_ok (new n m) sizes (by omega) (by simpa [new] using hs) hv
  rw [ht, R.ok.injEq] at h
  rw [h]
  exact h'

/-- C26, decoding: from any bit source that yields the canonical codes of a sequence of symbols, the
tree built from the lengths decodes that sequence, reading exactly those bits. -/
theorem C26_decode {σ : Type} (getBit : σ → R (Nat × σ)) (n m : Nat) (hn : n ≤ 65535)
    (sizes : List Byte) (hs : sizes.length ≤ n) (t : Tree) (ht : build (new n m) sizes = .ok t)
    (symbols : List Nat) (hc : ∀ s ∈ symbols, Coded (codeLengths sizes) s) (st st' : σ)
    (hr : Reads getBit st (symbols.flatMap (codeBits (codeLengths sizes))) st') :
    decodeMany getBit t symbols.length st = .ok (symbols, st') := by
  have hT := isTree_of_build hn hs ht
  have split : ∀ a b st st', Reads getBit st (a ++ b) st' →
      ∃ s, Reads getBit st a s ∧ Reads getBit s b st' := by
    intro a
    induction a with
    | nil => intro b st st' h; exact ⟨st, .nil _, h⟩
    | cons x a ih =>
      intro b st st' h
      cases h with
      | cons h1 h2 =>
        obtain ⟨s, h3, h4⟩ := ih b _ _ h2
        exact ⟨s, .cons h1 h3, h4⟩
  induction symbols generalizing st with
  | nil =>
    cases hr
    rfl
  | cons s ss ih =>
    rw [List.flatMap_cons] at hr
    obtain ⟨s1, h1, h2⟩ := split _ _ _ _ hr
    simp only [List.length_cons, decodeMany]
    rw [decode_ok getBit hT (hc s (by simp)) h1, R.ok_bind]
    simp only
    rw [ih (fun s' h => hc s' (by simp [h])) s1 h2, R.ok_bind]
    rfl

/-- C26, arbitrary bits: from any bit source, decoding one symbol does not panic; if it returns a
symbol, the symbol has a code and the bits read are exactly that code. -/
theorem C26_sound {σ : Type} (getBit : σ → R (Nat × σ)) (hbit : ∀ st, ∃ b st', b < 2 ∧ getBit st = .ok (b, st'))
    (n m : Nat) (hn : n ≤ 65535) (sizes : List Byte) (hs : sizes.length ≤ n) (t : Tree)
    (ht : build (new n m) sizes = .ok t) (st : σ) :
    decodeSymbol getBit t st ≠ .panic ∧
    ∀ s st', decodeSymbol getBit t st = .ok (s, st') →
      s < sizes.length ∧ Coded (codeLengths sizes) s ∧ Reads getBit st (codeBits (codeLengths sizes) s) st' := by
  have h := decode_sat getBit (fun _ => True) (fun st _ => by
    obtain ⟨b, st', h1, h2⟩ := hbit st
    rw [h2]; exact R.sat_ok ⟨h1, trivial⟩) (isTree_of_build hn hs ht) st trivial
  refine ⟨h.ne_panic, fun s st' e => ?_⟩
  obtain ⟨h1, h2, _⟩ := h.of_ok e
  have := coded_lt h1
  simp only [List.length_map] at this
  exact ⟨this, h1, h2⟩

/-- The example of RFC 1951 section 3.2.2: lengths 3,3,3,3,3,2,4,4 give codes 010 011 100 101 110 00
1110 1111. -/
example :
    let sizes : List Byte := [3#8, 3#8, 3#8, 3#8, 3#8, 2#8, 4#8, 4#8]
    (∃ t, build (new 8 15) sizes = .ok t ∧
      decodeMany (fun (l : List Bool) => .ok ((l.headD false).toNat, l.tail)) t 3
        [true, true, true, true, false, false, false, true, false] = .ok ([7, 5, 0], [])) ∧
    codeBits (codeLengths sizes) 7 = [true, true, true, true] ∧
    codeBits (codeLengths sizes) 5 = [false, false] ∧
    codeBits (codeLengths sizes) 0 = [false, true, false] := by
  refine ⟨?_, by decide +kernel, by decide +kernel, by decide +kernel⟩
  exact ⟨_, rfl, by decide +kernel⟩

/-- Three codes of one bit are over-subscribed. -/
example : ¬ Valid 15 (codeLengths [1#8, 1#8, 1#8]) ∧ build (new 8 15) [1#8, 1#8, 1#8] = .err :=
  ⟨fun h => by have := h.2.2; revert this; unfold Kraft; decide +kernel, by decide +kernel⟩

end Keramics.Props
