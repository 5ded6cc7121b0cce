import Verif.Model.FatDirectory
import Verif.Spec.FatDirectory
import Verif.Props.Types

/-! # Lemmas: FAT directories -/

namespace Keramics.FatDir
open Keramics.Spec.FatDir Keramics.Spec

theorem unitsLe_flatMap (us : List Nat) (h : ∀ u ∈ us, u < 2 ^ 16) : unitsLe (us.flatMap (leBytes 2)) = us := by
  induction us with
  | nil => rfl
  | cons u us ih =>
    have hu := h u (by simp)
    rw [List.flatMap_cons]
    rw [show leBytes 2 u = [BitVec.ofNat 8 u, BitVec.ofNat 8 (u / 256)] from rfl]
    simp only [List.cons_append, List.nil_append, unitsLe, BitVec.toNat_ofNat]
    rw [ih fun x hx => h x (List.mem_cons_of_mem _ hx)]
    congr 1
    omega

theorem flatMap_leBytes_length (us : List Nat) : (us.flatMap (leBytes 2)).length = 2 * us.length := by
  induction us with
  | nil => rfl
  | cons u us ih => rw [List.flatMap_cons, List.length_append, ih, leBytes_length, List.length_cons]; omega

theorem readDataLe_units (name us : List Nat) (h : ∀ u ∈ us, u < 2 ^ 16) :
    Ucs2.readDataLe name (us.flatMap (leBytes 2)) = .ok (name ++ us.takeWhile (· ≠ 0)) := by
  unfold Ucs2.readDataLe
  rw [Props.C15_decode_le _ (by rw [flatMap_leBytes_length]; omega), R.ok_bind, unitsLe_flatMap us h]
  rfl

theorem takeWhile_self {l : List Nat} {p : Nat → Bool} : l.takeWhile p = l ↔ ∀ x ∈ l, p x = true := by
  induction l with
  | nil => simp
  | cons a l ih =>
    rw [List.takeWhile_cons]
    by_cases h : p a = true
    · simp [h, ih]
    · simp [h]

/-- The part of a piece before its end. -/
def nameOf (piece : List Nat) : List Nat := piece.takeWhile (· ≠ 0)

/-- A piece as stored. -/
def IsPiece (piece : List Nat) : Prop := piece.length = 13 ∧ (∀ u ∈ piece, u < 2 ^ 16) ∧
  ((∀ u ∈ piece, u ≠ 0) ∨ ∃ p, (∀ u ∈ p, u ≠ 0) ∧ p.length ≤ 12 ∧ piece = p ++ [0] ++ List.replicate (12 - p.length) 0xffff)

theorem headUnit (us : List Nat) (h : ∀ u ∈ us, u < 2 ^ 16) (h0 : us ≠ []) :
    (us.flatMap (leBytes 2)).take 2 = [0xff#8, 0xff#8] ↔ us.head? = some 0xffff := by
  cases us with
  | nil => exact absurd rfl h0
  | cons u us =>
    have hu := h u (by simp)
    rw [List.flatMap_cons]
    simp only [leBytes, List.cons_append, List.nil_append, List.take, List.head?_cons, List.cons.injEq, and_true, Option.some.injEq]
    constructor
    · rintro ⟨h1, h2⟩
      have h1 := congrArg BitVec.toNat h1
      have h2 := congrArg BitVec.toNat h2
      simp only [BitVec.toNat_ofNat] at h1 h2
      omega
    · rintro rfl; decide

/-- The name logic of reading an entry, on units. -/
theorem join_segments (piece : List Nat) (h : IsPiece piece) :
    let a := nameOf (piece.take 5)
    let b := if a.length = 5 ∨ ((piece.drop 5).take 6).head? ≠ some 0xffff then a ++ nameOf ((piece.drop 5).take 6) else a
    (if b.length = 11 ∨ (piece.drop 11).head? ≠ some 0xffff then b ++ nameOf (piece.drop 11) else b) = nameOf piece := by
  obtain ⟨h1, _, h3⟩ := h
  rcases h3 with h3 | ⟨p, hp, hl, rfl⟩
  · match piece, h1 with
    | [a0, a1, a2, a3, a4, a5, a6, a7, a8, a9, a10, a11, a12], _ =>
      simp at h3
      simp [nameOf, h3]
  · have hp' : ∀ u ∈ p, ¬u = 0 := hp
    match p, hl with
    | [], _ => simp [nameOf]
    | [a0], _ => simp at hp'; simp [nameOf, hp']
    | [a0, a1], _ => simp at hp'; simp [nameOf, hp']
    | [a0, a1, a2], _ => simp at hp'; simp [nameOf, hp']
    | [a0, a1, a2, a3], _ => simp at hp'; simp [nameOf, hp']
    | [a0, a1, a2, a3, a4], _ => simp at hp'; simp [nameOf, hp']
    | [a0, a1, a2, a3, a4, a5], _ => simp at hp'; simp [nameOf, hp']
    | [a0, a1, a2, a3, a4, a5, a6], _ => simp at hp'; simp [nameOf, hp']
    | [a0, a1, a2, a3, a4, a5, a6, a7], _ => simp at hp'; simp [nameOf, hp']
    | [a0, a1, a2, a3, a4, a5, a6, a7, a8], _ => simp at hp'; simp [nameOf, hp']
    | [a0, a1, a2, a3, a4, a5, a6, a7, a8, a9], _ => simp at hp'; simp [nameOf, hp']
    | [a0, a1, a2, a3, a4, a5, a6, a7, a8, a9, a10], _ => simp at hp'; simp [nameOf, hp']
    | [a0, a1, a2, a3, a4, a5, a6, a7, a8, a9, a10, a11], _ => simp at hp'; simp [nameOf, hp']

theorem moreName_eq {name us : List Nat} {full a b : Nat} {data : List Byte} (h : ∀ u ∈ us, u < 2 ^ 16) (h0 : us ≠ [])
    (hb : b = a + 2 * us.length) (hd : (data.drop a).take (2 * us.length) = us.flatMap (leBytes 2)) (hl : b ≤ data.length) :
    moreName name full data a b =
      .ok (if name.length = full ∨ us.head? ≠ some 0xffff then name ++ us.takeWhile (· ≠ 0) else name) := by
  have hpos : 0 < us.length := List.length_pos_iff.2 h0
  unfold moreName
  rw [R.slice_ok (by omega) (by omega), R.ok_bind, R.slice_ok (by omega) hl, hb, Nat.add_sub_cancel_left,
    Nat.add_sub_cancel_left, hd, R.ok_bind, readDataLe_units _ _ h]
  have he : (data.drop a).take 2 = (us.flatMap (leBytes 2)).take 2 := by
    rw [← hd, List.take_take, Nat.min_eq_left (by omega)]
  rw [he]
  simp only [ne_eq, headUnit us h h0]
  split <;> rfl

theorem longEntry_length (checksum : Byte) (number : Nat) {piece : List Nat} (h : piece.length = 13) :
    (longEntry checksum number piece).length = 32 := by
  unfold longEntry
  simp only [List.length_append, flatMap_leBytes_length, List.length_take, List.length_drop, h, List.length_cons, List.length_nil]
  omega

/-- The four parts of a long name entry. -/
theorem longEntry_parts (checksum : Byte) (number : Nat) {piece : List Nat} (h : piece.length = 13) :
    ∃ A B D : List Byte, A.length = 10 ∧ B.length = 12 ∧ D.length = 4 ∧ A = (piece.take 5).flatMap (leBytes 2) ∧
      B = ((piece.drop 5).take 6).flatMap (leBytes 2) ∧ D = (piece.drop 11).flatMap (leBytes 2) ∧
      longEntry checksum number piece = BitVec.ofNat 8 number :: (A ++ (0x0f#8 :: 0x00#8 :: checksum ::
        (B ++ (0x00#8 :: 0x00#8 :: D)))) := by
  refine ⟨_, _, _, ?_, ?_, ?_, rfl, rfl, rfl, ?_⟩
  · rw [flatMap_leBytes_length, List.length_take]; omega
  · rw [flatMap_leBytes_length, List.length_take, List.length_drop]; omega
  · rw [flatMap_leBytes_length, List.length_drop]; omega
  · simp [longEntry]

theorem readLong_entry (checksum : Byte) (number : Nat) {piece : List Nat} (h : IsPiece piece) :
    readLong (longEntry checksum number piece) = .ok ⟨number % 256, nameOf piece⟩ := by
  obtain ⟨A, B, D, hA, hB, hD, eA, eB, eD, e⟩ := longEntry_parts checksum number h.1
  have hu := h.2.1
  have hlen := longEntry_length checksum number h.1
  unfold readLong
  rw [R.require_true (by omega), R.ok_bind]
  have hs : R.slice (longEntry checksum number piece) 1 11 = .ok A := by
    rw [R.slice_ok (by omega) (by omega), e]
    simp [List.take_append, hA]
  have hB2 : ((longEntry checksum number piece).drop 14).take 12 = B := by
    rw [e]; simp [List.drop_append, List.take_append, hA, hB, List.drop_eq_nil_of_le, List.take_of_length_le]
  have hD2 : ((longEntry checksum number piece).drop 28).take 4 = D := by
    rw [e]; simp [List.drop_append, List.take_append, hA, hB, hD, List.drop_eq_nil_of_le, List.take_of_length_le]
  have h0 : R.get (longEntry checksum number piece) 0 = .ok (BitVec.ofNat 8 number) := by rw [e]; rfl
  have l1 : (piece.take 5).length = 5 := by rw [List.length_take]; have := h.1; omega
  have l2 : ((piece.drop 5).take 6).length = 6 := by rw [List.length_take, List.length_drop]; have := h.1; omega
  have l3 : (piece.drop 11).length = 2 := by rw [List.length_drop]; have := h.1; omega
  rw [h0, R.ok_bind, hs, R.ok_bind, eA, readDataLe_units _ _ (fun u hm => hu u (List.mem_of_mem_take hm)), R.ok_bind,
    List.nil_append,
    moreName_eq (us := (piece.drop 5).take 6) (fun u hm => hu u (List.mem_of_mem_drop (List.mem_of_mem_take hm)))
      (by intro e; rw [e] at l2; simp at l2) (by rw [l2]) (by rw [l2, hB2, eB]) (by omega), R.ok_bind,
    moreName_eq (us := piece.drop 11) (fun u hm => hu u (List.mem_of_mem_drop hm))
      (by intro e; rw [e] at l3; simp at l3) (by rw [l3]) (by rw [l3, hD2, eD]) (by omega), R.ok_bind]
  have := join_segments piece h
  simp only [nameOf] at this ⊢
  rw [BitVec.toNat_ofNat]
  exact congrArg (fun n => (R.ok ⟨_, n⟩ : R LongEntry)) (Eq.trans (by congr) this)

theorem entryType_long (checksum : Byte) (number : Nat) {piece : List Nat} (h : piece.length = 13) (rest : List Byte)
    (hn : (1 ≤ number ∧ number ≤ 0x13) ∨ (0x41 ≤ number ∧ number ≤ 0x54)) :
    entryType (longEntry checksum number piece ++ rest) = .ok .longName := by
  obtain ⟨A, B, D, hA, hB, hD, -, -, -, e⟩ := longEntry_parts checksum number h
  have hlen := longEntry_length checksum number h
  have h1 : R.get (longEntry checksum number piece ++ rest) 0 = .ok (BitVec.ofNat 8 number) := by rw [e]; rfl
  have h2 : R.slice (longEntry checksum number piece ++ rest) 11 13 = .ok [0x0f#8, 0x00#8] := by
    rw [R.slice_ok (by omega) (by rw [List.length_append]; omega), e]
    simp [List.drop_append, List.take_append, hA, List.drop_eq_nil_of_le]
  have h3 : R.slice (longEntry checksum number piece ++ rest) 26 28 = .ok [0x00#8, 0x00#8] := by
    rw [R.slice_ok (by omega) (by rw [List.length_append]; omega), e]
    simp [List.drop_append, List.take_append, hA, hB, List.drop_eq_nil_of_le]
  have h4 : (BitVec.ofNat 8 number).toNat = number := by rw [BitVec.toNat_ofNat]; omega
  have h5 : ¬BitVec.ofNat 8 number = 0xe5#8 := by
    intro h; have := congrArg BitVec.toNat h; rw [h4] at this; simp at this; omega
  unfold entryType
  rw [h1, R.ok_bind]
  simp only [h5, if_false]
  rw [h2, R.ok_bind, h3, R.ok_bind, h4]
  rw [if_pos ⟨rfl, rfl, hn⟩]
  rfl

/-! ## One entry after the other -/

theorem take_append_eq {α : Type} {a b : List α} {n : Nat} (h : a.length = n) : (a ++ b).take n = a := by
  rw [← h, List.take_left]

theorem drop_append_eq {α : Type} {a b : List α} {n : Nat} (h : a.length = n) : (a ++ b).drop n = b := by
  rw [← h, List.drop_left]

theorem readData_long {fold : Nat → Option Nat} {offset : Nat} {st : State} {e rest : List Byte} (he : e.length = 32)
    (ht : entryType (e ++ rest) = .ok .longName) (ho : offset + 32 < 2 ^ 64) :
    readData fold offset st (e ++ rest) = (do
      let st ← stepLong st e
      readData fold (offset + 32) st rest) := by
  conv => lhs; unfold readData
  rw [dif_neg (by rw [List.length_append]; omega), dif_neg (by rw [List.length_append]; omega), ht, R.ok_bind]
  simp only
  rw [take_append_eq he, drop_append_eq he, R.addU_ok ho]
  rfl

theorem readData_short {fold : Nat → Option Nat} {offset : Nat} {st : State} {e rest : List Byte} (he : e.length = 32)
    (ht : entryType (e ++ rest) = .ok .shortName) (ho : offset + 32 < 2 ^ 64) :
    readData fold offset st (e ++ rest) = (do
      let st ← stepShort fold offset st e
      readData fold (offset + 32) st rest) := by
  conv => lhs; unfold readData
  rw [dif_neg (by rw [List.length_append]; omega), dif_neg (by rw [List.length_append]; omega), ht, R.ok_bind]
  simp only
  rw [take_append_eq he, drop_append_eq he, R.addU_ok ho]
  rfl

theorem readData_deleted {fold : Nat → Option Nat} {offset : Nat} {st : State} {e rest : List Byte} (he : e.length = 32)
    (ht : entryType (e ++ rest) = .ok .unallocated) (ho : offset + 32 < 2 ^ 64) :
    readData fold offset st (e ++ rest) = readData fold (offset + 32) st rest := by
  conv => lhs; unfold readData
  rw [dif_neg (by rw [List.length_append]; omega), dif_neg (by rw [List.length_append]; omega), ht, R.ok_bind]
  simp only
  rw [drop_append_eq he, R.addU_ok ho]
  rfl

theorem low_five (n : Nat) : n &&& 0x1f = n % 32 := by
  rw [show (0x1f : Nat) = 2 ^ 5 - 1 by rfl, Nat.and_two_pow_sub_one_eq_mod]

theorem last_numbers : ∀ n : Fin 21, 1 ≤ n.val → (0x40 + n.val) % 256 &&& 0x40 ≠ 0 ∧ (n.val % 256 &&& 0x40) = 0 := by
  decide +kernel

/-- Reading the entries of a name. -/
theorem readData_longEntries {fold : Nat → Option Nat} (checksum : Byte) (ps : List (List Nat)) (hne : ps ≠ [])
    (hp : ∀ p ∈ ps, IsPiece p) (number : Nat) (h1 : 1 ≤ number) (h20 : number + ps.length ≤ 21) (offset : Nat) (st : State)
    (rest : List Byte) (ho : offset + 32 * ps.length < 2 ^ 64) :
    ∃ st', readData fold offset st (longEntries checksum number ps ++ rest) =
        readData fold (offset + 32 * ps.length) st' rest ∧ st'.entries = st.entries ∧ st'.label = st.label ∧
      st'.last = number ∧ st'.longs ≠ [] ∧ st'.longs.reverse.flatMap LongEntry.name = ps.flatMap nameOf := by
  induction ps generalizing number offset st rest with
  | nil => exact absurd rfl hne
  | cons p ps ih =>
    cases ps with
    | nil =>
      have hpp := hp p (by simp)
      simp only [List.length_cons, List.length_nil] at h20 ho
      obtain ⟨hl1, _⟩ := last_numbers ⟨number, by omega⟩ h1
      refine ⟨⟨number, [⟨0x40 + number, nameOf p⟩], st.entries, st.label⟩, ?_, rfl, rfl, rfl, by simp, by simp⟩
      simp only [longEntries]
      rw [readData_long (longEntry_length _ _ hpp.1) (entryType_long _ _ hpp.1 _ (by omega)) (by omega)]
      unfold stepLong
      rw [readLong_entry _ _ hpp, R.ok_bind]
      simp only
      rw [low_five, R.addU_ok (by omega), R.ok_bind, if_pos hl1, R.pure_eq, R.ok_bind,
        show (0x40 + number) % 256 % 32 = number by omega, show (0x40 + number) % 256 = 0x40 + number by omega]
      simp
    | cons q qs =>
      have hpp := hp p (by simp)
      simp only [List.length_cons] at h20 ho
      obtain ⟨st1, e1, e2, e3, e4, e5, e6⟩ := ih (by simp) (fun x hx => hp x (List.mem_cons_of_mem _ hx)) (number + 1)
        (by omega) (by simp only [List.length_cons]; omega) offset st (longEntry checksum number p ++ rest)
        (by simp only [List.length_cons]; omega)
      obtain ⟨_, hl2⟩ := last_numbers ⟨number, by omega⟩ h1
      refine ⟨⟨number, st1.longs ++ [⟨number, nameOf p⟩], st1.entries, st1.label⟩, ?_, e2, e3, rfl, by simp, ?_⟩
      · rw [longEntries, List.append_assoc, e1]
        · rw [readData_long (longEntry_length _ _ hpp.1) (entryType_long _ _ hpp.1 _ (by omega))
            (by simp only [List.length_cons]; omega)]
          unfold stepLong
          rw [readLong_entry _ _ hpp, R.ok_bind]
          simp only at hl2 ⊢
          rw [low_five, R.addU_ok (by omega), R.ok_bind, if_neg (by rw [hl2]; simp), if_neg (by rw [e4]; omega), R.pure_eq,
            R.ok_bind, show number % 256 % 32 = number by omega, show number % 256 = number by omega]
          congr 1
        · simp
      · rw [List.reverse_append, List.reverse_singleton, List.singleton_append, List.flatMap_cons, e6]; rfl

/-! ## Pieces of a name -/

theorem pieces_spec (name : List Nat) (h0 : 0 < name.length) (hu : ∀ u ∈ name, 0 < u ∧ u < 2 ^ 16) :
    (∀ p ∈ pieces name, IsPiece p) ∧ (pieces name).flatMap nameOf = name ∧ pieces name ≠ [] ∧
      13 * (pieces name).length < name.length + 13 := by
  induction hn : name.length using Nat.strongRecOn generalizing name with
  | _ n ih =>
    subst hn
    unfold pieces
    have htw : ∀ l : List Nat, (∀ u ∈ l, u ∈ name) → l.takeWhile (· ≠ 0) = l := by
      intro l hl
      rw [Keramics.FatDir.takeWhile_self]
      intro x hx
      have := hu x (hl x hx)
      simp; omega
    by_cases h : name.length ≤ 13
    · rw [dif_pos h]
      by_cases h13 : name.length = 13
      · rw [if_pos h13]
        refine ⟨fun p hp => ?_, ?_, by simp, by simp; omega⟩
        · rw [List.mem_singleton.1 hp]
          exact ⟨h13, fun u hm => (hu u hm).2, Or.inl fun u hm => by have := hu u hm; omega⟩
        · rw [List.flatMap_cons, List.flatMap_nil, List.append_nil, nameOf, htw name (fun _ h => h)]
      · rw [if_neg h13]
        refine ⟨fun p hp => ?_, ?_, by simp, by simp; omega⟩
        · rw [List.mem_singleton.1 hp]
          refine ⟨by simp; omega, fun u hm => ?_, Or.inr ⟨name, fun u hm => by have := hu u hm; omega, by omega, rfl⟩⟩
          simp only [List.mem_append, List.mem_singleton, List.mem_replicate] at hm
          rcases hm with (hm | rfl) | ⟨_, rfl⟩
          · exact (hu u hm).2
          · decide
          · decide
        · simp only [List.flatMap_cons, List.flatMap_nil, List.append_nil, nameOf]
          rw [List.append_assoc, List.takeWhile_append_of_pos]
          · simp
          · intro x hx; have := hu x hx; simp; omega
    · rw [dif_neg h]
      have hd : (name.drop 13).length = name.length - 13 := List.length_drop
      obtain ⟨i1, i2, i3, i4⟩ := ih (name.drop 13).length (by omega) (name.drop 13) (by omega)
        (fun u hm => hu u (List.mem_of_mem_drop hm)) rfl
      refine ⟨fun p hp => ?_, ?_, by simp, ?_⟩
      · rcases List.mem_cons.1 hp with rfl | hp
        · exact ⟨by rw [List.length_take]; omega, fun u hm => (hu u (List.mem_of_mem_take hm)).2,
            Or.inl fun u hm => by have := hu u (List.mem_of_mem_take hm); omega⟩
        · exact i1 p hp
      · rw [List.flatMap_cons, i2, nameOf, htw _ (fun u hm => List.mem_of_mem_take hm), List.take_append_drop]
      · rw [List.length_cons]; omega

end Keramics.FatDir
