import Verif.Model.Ntfs
import Verif.Spec.Ntfs
import Verif.Base.Bits
import Verif.Base.Sat
import Verif.Base.Tactics
import Verif.Lemmas.BlockTree
import Verif.Lemmas.Blocks
import Verif.Lemmas.Layout

namespace Keramics.Ntfs
open Keramics.Spec.Ntfs

/-! ## Data runs -/

theorem shift_step (x : Nat) (b : Byte) : ((x <<< 8) % 2 ^ 64) ||| b.toNat = (x * 256 + b.toNat) % 2 ^ 64 := by
  have hb := b.isLt
  have : (x <<< 8) % 2 ^ 64 = (x % 2 ^ 56) <<< 8 := by
    rw [Nat.shiftLeft_eq, Nat.shiftLeft_eq]; omega
  rw [this, shl_or (by omega)]; omega

theorem shiftIn_eq (s : Nat) (hs : s < 2 ^ 64) (bytes : List Byte) :
    shiftIn s bytes = (s * 256 ^ bytes.length + leNat bytes) % 2 ^ 64 := by
  unfold shiftIn
  rw [List.foldl_reverse]
  induction bytes with
  | nil => simp [leNat]; omega
  | cons b bs ih =>
    rw [List.foldr_cons, ih, shift_step, leNat, List.length_cons, Nat.pow_succ 256 bs.length, ← Nat.mul_assoc s]
    generalize s * 256 ^ bs.length = y
    omega

theorem leBytes_getElem? (n v i : Nat) (h : i < n) : (leBytes n v)[i]? = some (BitVec.ofNat 8 (v / 256 ^ i)) := by
  induction n generalizing v i with
  | zero => omega
  | succ n ih =>
    cases i with
    | zero => simp [leBytes]
    | succ i =>
      rw [leBytes, List.getElem?_cons_succ, ih _ _ (by omega), Nat.div_div_eq_div_mul, Nat.pow_succ, Nat.mul_comm 256]

theorem top_bit (b : Byte) : b &&& 0x80#8 ≠ 0#8 ↔ 128 ≤ b.toNat := by revert b; decide +kernel

/-- The sign extended place of a run. -/
theorem place_eq {last lcn m : Nat} (h1 : 1 ≤ m) (h8 : m ≤ 8) (hlo : -(2 : Int) ^ (8 * m - 1) ≤ (lcn : Int) - last)
    (hhi : (lcn : Int) - last < 2 ^ (8 * m - 1)) (hl : last < 2 ^ 63) (hc : lcn < 2 ^ 63) (top : Byte)
    (ht : (leBytes m (((lcn : Int) - last) % 256 ^ m).toNat)[m - 1]? = some top) :
    asI64 (shiftIn (startValue last top) (leBytes m (((lcn : Int) - last) % 256 ^ m).toNat)) = (lcn : Int) - last := by
  rw [leBytes_getElem? _ _ _ (by omega)] at ht
  have ht := Option.some.inj ht
  have hp : (2 : Int) ^ (8 * m - 1) * 2 = 256 ^ m ∧ (2 : Nat) ^ (8 * m - 1) * 2 = 256 ^ m ∧ (256 : Int) ^ m = ((256 ^ m : Nat) : Int)
      ∧ (2 : Nat) ^ (8 * m - 1) = 256 ^ (m - 1) * 128 ∧ ((2 : Int) ^ (8 * m - 1) = ((2 ^ (8 * m - 1) : Nat) : Int)) := by
    have hm : m = 1 ∨ m = 2 ∨ m = 3 ∨ m = 4 ∨ m = 5 ∨ m = 6 ∨ m = 7 ∨ m = 8 := by omega
    rcases hm with rfl | rfl | rfl | rfl | rfl | rfl | rfl | rfl <;> decide
  obtain ⟨p1, p2, p3, p4, p5⟩ := hp
  have h64 : (2 : Nat) ^ 64 % 256 ^ m = 0 := by
    have hm : m = 1 ∨ m = 2 ∨ m = 3 ∨ m = 4 ∨ m = 5 ∨ m = 6 ∨ m = 7 ∨ m = 8 := by omega
    rcases hm with rfl | rfl | rfl | rfl | rfl | rfl | rfl | rfl <;> decide
  have hle : 256 ^ m ≤ 2 ^ 64 := Nat.le_of_dvd (by decide) (Nat.dvd_of_mod_eq_zero h64)
  rw [shiftIn_eq _ (by unfold startValue; split <;> omega), leBytes_length, leNat_leBytes]
  generalize hd : (lcn : Int) - last = d at *
  have htop : 128 ≤ top.toNat ↔ d < 0 := by
    rw [← ht, BitVec.toNat_ofNat]
    have hm1 : 256 ^ m = 256 ^ (m - 1) * 256 := by rw [← Nat.pow_succ]; congr 1; omega
    have hq : 0 < 256 ^ (m - 1) := Nat.pow_pos (by decide)
    have hlt : (d % 256 ^ m).toNat < 256 ^ m := by
      have := Int.emod_lt_of_pos d (b := 256 ^ m) (by rw [p3]; omega)
      have := Int.emod_nonneg d (b := 256 ^ m) (by rw [p3]; omega)
      omega
    have hdl : (d % 256 ^ m).toNat / 256 ^ (m - 1) < 256 := by
      rw [Nat.div_lt_iff_lt_mul hq, Nat.mul_comm]; omega
    rw [Nat.mod_eq_of_lt (by simpa using hdl), Nat.le_div_iff_mul_le hq, Nat.mul_comm 128, ← p4]
    by_cases hneg : d < 0
    · have : d % 256 ^ m = d + 256 ^ m := by
        rw [← Int.add_emod_right, Int.emod_eq_of_lt (by omega) (by omega)]
      rw [this]; omega
    · have : d % 256 ^ m = d := Int.emod_eq_of_lt (by omega) (by omega)
      rw [this]; omega
  by_cases hneg : d < 0
  · have hst : startValue last top = 2 ^ 64 - 1 := by
      unfold startValue
      rw [if_pos ⟨by omega, (top_bit top).2 (htop.2 hneg)⟩]
    have he : d % 256 ^ m = d + 256 ^ m := by
      rw [← Int.add_emod_right, Int.emod_eq_of_lt (by omega) (by omega)]
    have hv : (d + 256 ^ m).toNat < 256 ^ m := by omega
    rw [hst, he, Nat.mod_eq_of_lt hv, Nat.sub_mul, Nat.one_mul]
    have h3 : 2 ^ 64 * 256 ^ m - 256 ^ m + (d + 256 ^ m).toNat = 2 ^ 64 * (256 ^ m - 1) + (2 ^ 64 + d).toNat := by
      rw [Nat.mul_sub, Nat.mul_one]
      have : 2 ^ 64 * 1 ≤ 2 ^ 64 * 256 ^ m := Nat.mul_le_mul_left _ (by omega)
      have : 1 * 256 ^ m ≤ 2 ^ 64 * 256 ^ m := Nat.mul_le_mul_right _ (by omega)
      generalize 2 ^ 64 * 256 ^ m = z at *
      omega
    rw [h3, Nat.mul_add_mod, Nat.mod_eq_of_lt (by omega)]
    unfold asI64
    rw [if_neg (by omega)]
    omega
  · have hst : startValue last top = 0 := by
      unfold startValue
      rw [if_neg]
      rintro ⟨-, h⟩
      exact hneg (htop.1 ((top_bit top).1 h))
    have he : d % 256 ^ m = d := Int.emod_eq_of_lt (by omega) (by omega)
    rw [hst, he, Nat.zero_mul, Nat.zero_add, Nat.mod_eq_of_lt (by omega), Nat.mod_eq_of_lt (by omega)]
    unfold asI64
    rw [if_pos (by omega)]
    omega

/-- A run as the code keeps it. -/
def kept : Run → DataRun
  | .data count lcn => ⟨lcn, count, .inFile⟩
  | .sparse count => ⟨0, count, .sparse⟩

theorem nibbles : ∀ n m : Fin 9, ((BitVec.ofNat 8 (16 * m.val + n.val)).toNat &&& 0x0f) = n.val ∧
    (BitVec.ofNat 8 (16 * m.val + n.val)).toNat >>> 4 = m.val := by decide +kernel

theorem readRun_head {data : List Byte} {last n m : Nat} (b : Byte) (h1 : 1 ≤ n) (h8 : n ≤ 8) (hm : m ≤ 8)
    (hb : b = BitVec.ofNat 8 (16 * m + n)) (hd : data.head? = some b)
    (hl : 1 + n + m ≤ data.length) :
    readRun data last = readBlock data last n m (leNat ((data.drop 1).take n)) := by
  obtain ⟨e1, e2⟩ := nibbles ⟨n, by omega⟩ ⟨m, by omega⟩
  simp only at e1 e2
  unfold readRun
  have hg : R.get data 0 = .ok b := by
    cases data with
    | nil => simp at hd
    | cons x xs => simp at hd; subst hd; rfl
  rw [R.require_true (by omega), R.ok_bind, hg, R.ok_bind]
  simp only
  rw [hb, e1, e2, R.require_true hl, R.ok_bind, R.require_true h8, R.ok_bind, R.require_true hm, R.ok_bind,
    if_neg (by omega), R.slice_ok (by omega) (by omega), R.ok_bind, shiftIn_eq _ (by decide), Nat.zero_mul, Nat.zero_add,
    Nat.add_sub_cancel_left, Nat.mod_eq_of_lt]
  have h2 := leNat_lt ((data.drop 1).take n)
  have h3 : 256 ^ ((data.drop 1).take n).length ≤ 256 ^ 8 :=
    Nat.pow_le_pow_right (by decide) (by rw [List.length_take]; omega)
  omega

theorem take_left {α} {a b : List α} {n : Nat} (h : a.length = n) : (a ++ b).take n = a := by
  subst h; simp

theorem drop_left {α} {a b : List α} {n : Nat} (h : a.length = n) : (a ++ b).drop n = b := by
  subst h; simp

theorem readRun_data {last count lcn n m : Nat} (h1 : 1 ≤ n) (h8 : n ≤ 8) (hcount : count < 256 ^ n) (m1 : 1 ≤ m) (m8 : m ≤ 8)
    (hlo : -(2 : Int) ^ (8 * m - 1) ≤ (lcn : Int) - last) (hhi : (lcn : Int) - last < 2 ^ (8 * m - 1)) (hl : last < 2 ^ 63)
    (hc : lcn < 2 ^ 63) (rest : List Byte) :
    readRun ([BitVec.ofNat 8 (16 * m + n)] ++ leBytes n count ++ leBytes m (((lcn : Int) - last) % 256 ^ m).toNat ++ rest) last =
      .ok (1 + n + m, ⟨lcn, count, .inFile⟩) := by
  generalize hD : leBytes m (((lcn : Int) - last) % 256 ^ m).toNat = D
  have hDl : D.length = m := by rw [← hD, leBytes_length]
  have hlen : ([BitVec.ofNat 8 (16 * m + n)] ++ leBytes n count ++ D ++ rest).length = 1 + n + m + rest.length := by
    simp [hDl]; omega
  rw [readRun_head (n := n) (m := m) _ h1 h8 m8 rfl (by rfl) (by omega)]
  have e1 : (([BitVec.ofNat 8 (16 * m + n)] ++ leBytes n count ++ D ++ rest).drop 1).take n = leBytes n count := by
    simp only [List.cons_append, List.nil_append, List.drop_succ_cons, List.drop_zero, List.append_assoc]
    exact take_left (leBytes_length _ _)
  rw [e1, leNat_leBytes, Nat.mod_eq_of_lt hcount]
  unfold readBlock
  rw [if_neg (by omega)]
  obtain ⟨top, htop⟩ : ∃ top, D[m - 1]? = some top := ⟨D[m - 1]'(by omega), by rw [List.getElem?_eq_getElem]⟩
  have hg : R.get ([BitVec.ofNat 8 (16 * m + n)] ++ leBytes n count ++ D ++ rest) (1 + n + m - 1) = .ok top := by
    unfold R.get
    rw [List.getElem?_append_left (by simp [hDl]; omega), List.getElem?_append_right (by simp; omega)]
    rw [show 1 + n + m - 1 - ([BitVec.ofNat 8 (16 * m + n)] ++ leBytes n count).length = m - 1 by simp; omega, htop]
  have e2 : (([BitVec.ofNat 8 (16 * m + n)] ++ leBytes n count ++ D ++ rest).drop (1 + n)).take m = D := by
    rw [List.append_assoc, drop_left (by simp; omega), take_left hDl]
  rw [hg, R.ok_bind, R.slice_ok (by omega) (by omega), R.ok_bind, Nat.add_sub_cancel_left, e2, ← hD,
    place_eq m1 m8 hlo hhi hl hc top (by rw [hD]; exact htop)]
  have ha : asI64 last = last := by unfold asI64; rw [if_pos hl]
  have hs : R.addI64 ((lcn : Int) - last) (asI64 last) = .ok (lcn : Int) := by
    rw [ha]; unfold R.addI64
    rw [if_pos (by omega)]
    congr 1; omega
  rw [hs, R.ok_bind, R.pure_eq]
  unfold asU64
  rw [Int.emod_eq_of_lt (by omega) (by omega)]
  rfl

theorem readRun_sparse {last count n : Nat} (h1 : 1 ≤ n) (h8 : n ≤ 8) (hcount : count < 256 ^ n) (rest : List Byte) :
    readRun ([BitVec.ofNat 8 n] ++ leBytes n count ++ rest) last = .ok (1 + n, ⟨0, count, .sparse⟩) := by
  have hlen : ([BitVec.ofNat 8 n] ++ leBytes n count ++ rest).length = 1 + n + rest.length := by
    simp; omega
  rw [readRun_head (n := n) (m := 0) _ h1 h8 (by omega) rfl (by simp) (by omega)]
  have e1 : (([BitVec.ofNat 8 n] ++ leBytes n count ++ rest).drop 1).take n = leBytes n count := by
    simp only [List.cons_append, List.nil_append, List.drop_succ_cons, List.drop_zero]
    exact take_left (leBytes_length _ _)
  rw [e1, leNat_leBytes, Nat.mod_eq_of_lt hcount]
  rfl

theorem readRun_end (last : Nat) (rest : List Byte) : readRun (0#8 :: rest) last = .ok (1, ⟨0, 0, .endOfList⟩) := by
  unfold readRun
  rw [R.require_true (by simp), R.ok_bind, show R.get (0#8 :: rest) 0 = .ok 0#8 from rfl, R.ok_bind]
  simp [R.require]

/-- What ends a run list: the end of the data, or a zero byte with anything behind it. -/
theorem runsLoop_encodes {last : Nat} {runs : List Run} {bytes : List Byte} (h : Encodes last runs bytes) (hl : last < 2 ^ 63)
    (hlcn : ∀ count lcn, Run.data count lcn ∈ runs → lcn < 2 ^ 63)
    (pre tail : List Byte) (ht : tail = [] ∨ ∃ junk, tail = 0#8 :: junk) (hlen : (pre ++ bytes ++ tail).length < 2 ^ 64)
    (fuel : Nat) (hf : bytes.length + tail.length ≤ fuel) (acc : List DataRun) :
    runsLoop (pre ++ bytes ++ tail) fuel pre.length last acc =
      .ok (pre.length + bytes.length + min 1 tail.length, acc ++ runs.map kept) := by
  induction h generalizing pre fuel acc with
  | nil =>
    rw [List.append_nil] at *
    rcases ht with rfl | ⟨junk, rfl⟩
    · unfold runsLoop
      rw [if_neg (by simp)]; simp
    · cases fuel with
      | zero => simp at hf
      | succ fuel =>
        unfold runsLoop
        rw [if_pos (by simp)]
        simp only
        rw [R.slice_ok (by simp) (Nat.le_refl _), R.ok_bind, drop_left rfl, List.take_of_length_le (by simp),
          readRun_end, R.ok_bind]
        simp only
        rw [R.addU_ok (by simp at hlen ⊢; omega), R.ok_bind, if_pos trivial]
        simp
  | @data last count lcn runs bytes n m h1 h2 h3 h4 h5 h6 h7 hrest ih =>
    generalize hD : leBytes m (((lcn : Int) - last) % 256 ^ m).toNat = D at *
    have hDl : D.length = m := by rw [← hD, leBytes_length]
    have hpl : ([BitVec.ofNat 8 (16 * m + n)] ++ leBytes n count ++ D).length = 1 + n + m := by simp [hDl]; omega
    have hbl : ([BitVec.ofNat 8 (16 * m + n)] ++ leBytes n count ++ D ++ bytes).length = 1 + n + m + bytes.length := by
      rw [List.length_append, hpl]
    rw [hbl] at hf
    cases fuel with
    | zero => omega
    | succ fuel =>
      have hlcn' := hlcn count lcn (by simp)
      unfold runsLoop
      rw [if_pos (by rw [List.length_append, List.length_append, hbl]; omega)]
      simp only
      rw [R.slice_ok (by simp) (Nat.le_refl _), R.ok_bind, List.append_assoc pre, drop_left rfl,
        List.take_of_length_le (by simp)]
      rw [List.append_assoc _ bytes tail, ← hD, readRun_data h1 h2 h3 h4 h5 h6 h7 hl hlcn', R.ok_bind, hD]
      simp only
      rw [List.length_append, List.length_append, hbl] at hlen
      rw [R.addU_ok (by omega), R.ok_bind, if_neg (by simp)]
      have := ih hlcn' (fun c l hm => hlcn c l (List.mem_cons_of_mem _ hm))
        (pre ++ ([BitVec.ofNat 8 (16 * m + n)] ++ leBytes n count ++ D))
        (by rw [List.length_append, List.length_append, List.length_append, hpl]; omega) fuel (by omega)
        (acc ++ [⟨lcn, count, .inFile⟩])
      rw [List.length_append, hpl] at this
      have e : pre ++ ([BitVec.ofNat 8 (16 * m + n)] ++ leBytes n count ++ D) ++ bytes ++ tail =
          pre ++ ([BitVec.ofNat 8 (16 * m + n)] ++ leBytes n count ++ D ++ (bytes ++ tail)) := by simp
      rw [e] at this
      show runsLoop _ fuel _ lcn _ = _
      rw [show pre.length + (1 + n + m) = pre.length + (1 + n + m) from rfl, this, hbl]
      simp only [List.map_cons, kept, List.append_assoc, List.cons_append, List.nil_append]
      congr 2
      omega
  | @sparse last count runs bytes n h1 h2 h3 hrest ih =>
    have hpl : ([BitVec.ofNat 8 n] ++ leBytes n count).length = 1 + n := by simp; omega
    have hbl : ([BitVec.ofNat 8 n] ++ leBytes n count ++ bytes).length = 1 + n + bytes.length := by
      rw [List.length_append, hpl]
    rw [hbl] at hf
    cases fuel with
    | zero => omega
    | succ fuel =>
      unfold runsLoop
      rw [if_pos (by rw [List.length_append, List.length_append, hbl]; omega)]
      simp only
      rw [R.slice_ok (by simp) (Nat.le_refl _), R.ok_bind, List.append_assoc pre, drop_left rfl,
        List.take_of_length_le (by simp)]
      rw [List.append_assoc _ bytes tail, readRun_sparse h1 h2 h3, R.ok_bind]
      simp only
      rw [List.length_append, List.length_append, hbl] at hlen
      rw [R.addU_ok (by omega), R.ok_bind, if_neg (by simp)]
      have := ih hl (fun c l hm => hlcn c l (List.mem_cons_of_mem _ hm))
        (pre ++ ([BitVec.ofNat 8 n] ++ leBytes n count))
        (by rw [List.length_append, List.length_append, List.length_append, hpl]; omega) fuel (by omega)
        (acc ++ [⟨0, count, .sparse⟩])
      rw [List.length_append, hpl] at this
      have e : pre ++ ([BitVec.ofNat 8 n] ++ leBytes n count) ++ bytes ++ tail =
          pre ++ ([BitVec.ofNat 8 n] ++ leBytes n count ++ (bytes ++ tail)) := by simp
      rw [e] at this
      show runsLoop _ fuel _ last _ = _
      rw [this, hbl]
      simp only [List.map_cons, kept, List.append_assoc, List.cons_append, List.nil_append]
      congr 2
      omega

/-! ## Fix-up values -/

theorem fixLoop_protect {usn : List Byte} (hu : usn.length = 2) (k : Nat) (pre record : List Byte) (fo : Nat)
    (hlen : 512 * k ≤ record.length) (hfo : fo + 2 * k ≤ pre.length + 510) 
    (hends : ((pre ++ record.take 510).drop fo).take (2 * k) = sectorEnds k record) :
    fixLoop usn k fo (pre.length + 510) (pre ++ protect usn k record) = .ok (pre ++ record) := by
  induction k generalizing pre record fo with
  | zero => rfl
  | succ k ih =>
    have hx : (record.take 510).length = 510 := by rw [List.length_take]; omega
    generalize hX : pre ++ record.take 510 = X at *
    have hXl : X.length = pre.length + 510 := by rw [← hX, List.length_append, hx]
    have hb : pre ++ protect usn (k + 1) record = X ++ (usn ++ protect usn k (record.drop 512)) := by
      rw [protect, ← hX]; simp
    have hE : (X.drop fo).take 2 = (record.drop 510).take 2 ∧ (X.drop (fo + 2)).take (2 * k) = sectorEnds k (record.drop 512) := by
      rw [sectorEnds] at hends
      have hl2 : ((record.drop 510).take 2).length = 2 := by rw [List.length_take, List.length_drop]; omega
      constructor
      · have := congrArg (List.take 2) hends
        rw [take_left hl2, List.take_take, Nat.min_eq_left (by omega)] at this
        exact this
      · have := congrArg (List.drop 2) hends
        rw [drop_left hl2, List.drop_take, List.drop_drop] at this
        rw [← this]; rfl
    have hfix : fixOne usn fo (pre.length + 510) (pre ++ protect usn (k + 1) record) =
        .ok (pre ++ record.take 512 ++ protect usn k (record.drop 512)) := by
      have hbl : (X ++ (usn ++ protect usn k (record.drop 512))).length = pre.length + 510 + 2 + (protect usn k (record.drop 512)).length := by
        rw [List.length_append, List.length_append, hXl, hu]; omega
      rw [hb]
      unfold fixOne
      rw [if_pos (by omega), R.slice_ok (by omega) (by omega), R.ok_bind, R.slice_ok (by omega) (by omega), R.ok_bind,
        drop_left hXl, Nat.add_sub_cancel_left, take_left hu, R.require_true rfl, R.ok_bind, Nat.add_sub_cancel_left,
        R.splice_ok (by omega) (by omega)]
      · have hdr : (X ++ (usn ++ protect usn k (record.drop 512))).drop (pre.length + 510 + 2) = protect usn k (record.drop 512) := by
          rw [← List.drop_drop, drop_left hXl, drop_left hu]
        rw [take_left hXl, hdr]
        have : ((X ++ (usn ++ protect usn k (record.drop 512))).drop fo).take 2 = (X.drop fo).take 2 := by
          rw [List.drop_append_of_le_length (by omega), List.take_append_of_le_length (by rw [List.length_drop]; omega)]
        rw [this, hE.1, ← hX]
        congr 2
        rw [List.append_assoc]
        congr 1
        rw [show 512 = 510 + 2 from rfl, List.take_add]
      · rw [List.length_take, List.length_drop]; omega
    rw [fixLoop, hfix, R.ok_bind]
    have h5 : (record.take 512).length = 512 := by rw [List.length_take]; omega
    have hpl : (pre ++ record.take 512).length = pre.length + 512 := by rw [List.length_append, h5]
    have := ih (pre ++ record.take 512) (record.drop 512) (fo + 2) (by rw [List.length_drop]; omega) (by omega) (by
      rw [← hE.2]
      have : pre ++ record.take 512 ++ (record.drop 512).take 510 = X ++ ((record.drop 510).take 2 ++ (record.drop 512).take 510) := by
        rw [← hX, show 512 = 510 + 2 from rfl, List.take_add]; simp
      rw [this, List.drop_append_of_le_length (by omega), List.take_append_of_le_length (by rw [List.length_drop]; omega)])
    rw [hpl] at this
    rw [show pre.length + 510 + 512 = pre.length + 512 + 510 by omega, this]
    simp

/-- A record whose array is in the first sector: the array is not changed by the loop, and the loop ends
with an error at the first sector end that is not the update sequence number. -/
theorem fixLoop_torn {usn : List Byte} (hu : usn.length = 2) (k : Nat) (buffer : List Byte) (fo bo j : Nat) (hj : j < k)
    (hlen : bo + 512 * (k - 1) + 2 ≤ buffer.length) (hfo : fo + 2 * k ≤ buffer.length)
    (hne : (buffer.drop (bo + 512 * j)).take 2 ≠ usn) : fixLoop usn k fo bo buffer = .err := by
  induction k generalizing buffer fo bo j with
  | zero => omega
  | succ k ih =>
    rw [fixLoop]
    unfold fixOne
    rw [if_pos (by omega), R.slice_ok (by omega) (by omega), R.ok_bind, R.slice_ok (by omega) (by omega), R.ok_bind,
      Nat.add_sub_cancel_left]
    by_cases h : (buffer.drop bo).take 2 = usn
    · have hj0 : j ≠ 0 := by rintro rfl; exact hne (by simpa using h)
      rw [R.require_true h, R.ok_bind, Nat.add_sub_cancel_left,
        R.splice_ok (by omega) (by omega) (by rw [List.length_take, List.length_drop]; omega), R.ok_bind]
      generalize hv : (buffer.drop fo).take 2 = v
      have hvl : v.length = 2 := by rw [← hv, List.length_take, List.length_drop]; omega
      have hnl : (buffer.take bo ++ v ++ buffer.drop (bo + 2)).length = buffer.length := by
        simp only [List.length_append, List.length_take, List.length_drop, hvl]; omega
      refine ih _ (fo + 2) (bo + 512) (j - 1) (by omega) (by rw [hnl]; omega) (by rw [hnl]; omega) ?_
      have hd : (buffer.take bo ++ v ++ buffer.drop (bo + 2)).drop (bo + 512 + 512 * (j - 1)) = buffer.drop (bo + 512 * j) := by
        have hpre : (buffer.take bo ++ v).length = bo + 2 := by
          rw [List.length_append, List.length_take, hvl]; omega
        rw [List.drop_append, List.drop_eq_nil_of_le (by omega), List.nil_append, List.drop_drop, hpre]
        congr 1; omega
      rw [hd]; exact hne
    · rw [R.require_false h]; rfl

theorem fixLoop_sat (usn : List Byte) (k : Nat) (buffer : List Byte) (fo bo : Nat) (hfo : fo + 2 * k ≤ buffer.length) :
    R.Sat (fixLoop usn k fo bo buffer) fun b => b.length = buffer.length := by
  induction k generalizing buffer fo bo with
  | zero => exact rfl
  | succ k ih =>
    rw [fixLoop]
    refine R.Sat.bind (P := fun b => b.length = buffer.length) ?_ fun b hb => ?_
    · unfold fixOne
      refine R.sat_ite (fun h => ?_) fun _ => R.sat_ok rfl
      rw [R.slice_ok (by omega) (by omega), R.ok_bind, R.slice_ok (by omega) (by omega), R.ok_bind]
      refine R.Sat.bind R.sat_require fun _ _ => ?_
      rw [R.splice_ok (by omega) (by omega) (by rw [List.length_take, List.length_drop]; omega)]
      refine R.sat_ok ?_
      simp only [List.length_append, List.length_take, List.length_drop]; omega
    · exact (ih b (fo + 2) (bo + 512) (by omega)).mono fun b' hb' => by omega

end Keramics.Ntfs

namespace Keramics.Ntfs
open Keramics.Spec.Ntfs Keramics.BlockTree

/-! ## Cluster block streams -/

/-- Bytes of a run. -/
def runLen (bs : Nat) (r : Run) : Nat := r.count * bs

/-- The range kept for a run. -/
def runRange (off : Nat) : Run → Range
  | .data count lcn => ⟨off, lcn, count, false⟩
  | .sparse count => ⟨off, 0, count, true⟩

theorem openRuns_ok {bs : Nat} (hbs : 0 < bs) (runs : List Run) (hpos : ∀ r ∈ runs, 0 < r.count) {vcn off : Nat}
    {tree : BlockTree.Tree Range} {rs : List (Spec.BlockTree.Range Range)} (hh : Holds tree rs) (hp : tree.perNode = 0)
    (hl : tree.leafSize = bs) (hd : tree.dataSize < 2 ^ 63) (hal : bs ∣ off)
    (hle : off + Layout.total (runLen bs) runs ≤ tree.dataSize) (hup : ∀ r ∈ rs, r.offset + r.size ≤ off) (hv : vcn ≤ off) :
    ∃ tree', openRuns bs (runs.map kept) vcn off tree =
        .ok (vcn + Layout.total Run.count runs, off + Layout.total (runLen bs) runs, tree') ∧
      Holds tree' (rs ++ Layout.ranges (runLen bs) runRange off runs) ∧ tree'.dataSize = tree.dataSize ∧
      tree'.perNode = 0 ∧ tree'.leafSize = bs ∧ bs ∣ off + Layout.total (runLen bs) runs ∧
      vcn + Layout.total Run.count runs ≤ off + Layout.total (runLen bs) runs := by
  induction runs generalizing vcn off tree rs with
  | nil => exact ⟨tree, by simp [openRuns, Layout.total], by simpa [Layout.ranges] using hh, rfl, hp, hl, by simpa [Layout.total], by simpa [Layout.total]⟩
  | cons r runs ih =>
    have hr := hpos r (by simp)
    rw [Layout.total_cons] at hle
    have hlen : runLen bs r = r.count * bs := rfl
    have hle1 : r.count * 1 ≤ r.count * bs := Nat.mul_le_mul_left _ hbs
    have hk : ∃ sp, rangeSparse (kept r).kind = .ok sp ∧ (kept r).count = r.count ∧
        (⟨off, (kept r).block, (kept r).count, sp⟩ : Range) = runRange off r := by
      cases r <;> exact ⟨_, rfl, rfl, rfl⟩
    obtain ⟨sp, k1, k2, k3⟩ := hk
    obtain ⟨tree1, i1, i2, i3, i4, i5⟩ := insert_flat hh (off := off) (size := r.count * bs) (v := runRange off r) (by omega)
      (by omega) (by omega) (by omega) (hl ▸ hal) (hl ▸ Nat.dvd_mul_left _ _) (fun x hx => apart_of_le (hup x hx))
    obtain ⟨tree', e1, e2, e3, e4, e5, e6, e7⟩ := ih (fun x hx => hpos x (List.mem_cons_of_mem _ hx)) (vcn := vcn + r.count)
      (off := off + r.count * bs) i2 (by omega) (by omega) (by omega) (Nat.dvd_add hal (Nat.dvd_mul_left _ _)) (by omega)
      (fun x hx => by
        rcases List.mem_append.1 hx with hx | hx
        · have := hup x hx; omega
        · rw [List.mem_singleton.1 hx]) (by omega)
    refine ⟨tree', ?_, ?_, by omega, e4, e5, ?_, ?_⟩
    · rw [List.map_cons, openRuns, k2, R.mulU_ok (by omega), R.ok_bind, k1, R.ok_bind, ← k2, k3, k2, i1, R.ok_bind, R.addU_ok (by omega), R.ok_bind,
        R.addU_ok (by omega), R.ok_bind, e1, Layout.total_cons, Layout.total_cons, hlen]
      simp only [Nat.add_assoc]
    · rw [Layout.ranges, hlen]; simpa using e2
    · rw [Layout.total_cons, hlen, ← Nat.add_assoc]; exact e6
    · rw [Layout.total_cons, Layout.total_cons, hlen]; omega

/-- A group as the code keeps it. -/
def keptGroup (g : Nat × Nat × List Run) : Group := ⟨g.1, g.2.1, g.2.2.map kept⟩

theorem openGroups_ok {bs : Nat} (hbs : 0 < bs) (groups : List (Nat × Nat × List Run))
    (hpos : ∀ g ∈ groups, ∀ r ∈ g.2.2, 0 < r.count) {vcn off : Nat} (hg : Follow vcn groups)
    {tree : BlockTree.Tree Range} {rs : List (Spec.BlockTree.Range Range)} (hh : Holds tree rs) (hp : tree.perNode = 0)
    (hl : tree.leafSize = bs) (hd : tree.dataSize < 2 ^ 63) (hal : bs ∣ off)
    (hle : off + Layout.total (runLen bs) (groups.flatMap (·.2.2)) ≤ tree.dataSize) (hup : ∀ r ∈ rs, r.offset + r.size ≤ off)
    (hv : vcn ≤ off) :
    ∃ tree', openGroups bs (groups.map keptGroup) vcn off tree = .ok tree' ∧
      Holds tree' (rs ++ Layout.ranges (runLen bs) runRange off (groups.flatMap (·.2.2))) ∧ tree'.dataSize = tree.dataSize := by
  induction groups generalizing vcn off tree rs with
  | nil => exact ⟨tree, rfl, by simpa [Layout.ranges] using hh, rfl⟩
  | cons g groups ih =>
    obtain ⟨first, last, runs⟩ := g
    obtain ⟨g1, g2, g3⟩ := hg
    rw [List.flatMap_cons, Layout.total_append] at hle
    obtain ⟨tree1, e1, e2, e3, e4, e5, e6, e7⟩ := openRuns_ok hbs runs (hpos (first, last, runs) (by simp)) (vcn := vcn) (off := off) hh hp hl hd hal
      (by simp only at hle; omega) hup hv
    simp only at hle
    obtain ⟨tree2, f1, f2, f3⟩ := ih (fun x hx => hpos x (List.mem_cons_of_mem _ hx)) (vcn := vcn + Layout.total Run.count runs)
      (off := off + Layout.total (runLen bs) runs) g3 e2 e4 e5 (by omega) e6 (by omega)
      (fun x hx => by
        rcases List.mem_append.1 hx with hx | hx
        · have := hup x hx; omega
        · exact Layout.ranges_end _ _ _ _ hx) e7
    refine ⟨tree2, ?_, ?_, by omega⟩
    · rw [List.map_cons, openGroups]
      have hlast : lastOk last (vcn + Layout.total Run.count runs) = .ok () := by
        unfold lastOk
        rcases g2 with h | h
        · simp [h]
        · split
          · have h' : last + 1 = vcn + Layout.total Run.count runs := h
            rw [R.addU_ok (by omega), R.ok_bind, R.require_true h']
          · rfl
      rw [R.require_true (show (keptGroup (first, last, runs)).first = vcn from g1), R.ok_bind]
      simp only [keptGroup]
      rw [e1, R.ok_bind]
      simp only
      rw [hlast, R.ok_bind]
      exact f1
    · rw [List.flatMap_cons, Layout.ranges_append, ← List.append_assoc]; exact f2

theorem Run.bytes_length {volume : List Byte} {bs : Nat} {r : Run}
    (h : ∀ count lcn, r = .data count lcn → (lcn + count) * bs ≤ volume.length) : (r.bytes volume bs).length = runLen bs r := by
  cases r with
  | data count lcn =>
    have := h count lcn rfl
    rw [Nat.add_mul] at this
    simp only [Run.bytes, runLen, Run.count, List.length_take, List.length_drop]; omega
  | sparse count => simp [Run.bytes, runLen, Run.count]

/-- One iteration of the read loop. -/
theorem piece_spec {volume : List Byte} {bs : Nat} {runs : List Run} {s : Opened}
    (hin : ∀ count lcn, Run.data count lcn ∈ runs → (lcn + count) * bs ≤ volume.length) (hvol : volume.length < 2 ^ 64)
    (hh : Holds s.tree (Layout.ranges (runLen bs) runRange 0 runs)) (htot : Layout.total (runLen bs) runs ≤ s.tree.dataSize)
    (hd : s.tree.dataSize < 2 ^ 63)
    (hval : s.validSize ≤ Layout.total (runLen bs) runs) (hvs : s.validSize ≤ s.size) {pos n : Nat} (hn : 0 < n)
    (hpos : pos + n ≤ s.size) :
    ∃ out, piece volume bs s () pos n = .ok (out, ()) ∧ out ≠ [] ∧
      out <+: ((contents volume bs runs s.validSize s.size).drop pos).take n := by
  have hbl : ∀ r ∈ runs, (r.bytes volume bs).length = runLen bs r := fun r hr =>
    Run.bytes_length fun count lcn e => hin count lcn (e ▸ hr)
  have hfl := Layout.flatMap_length (runLen bs) (Run.bytes volume bs) runs hbl
  have hcl : (contents volume bs runs s.validSize s.size).length = s.size := by
    rw [contents, List.length_append, List.length_take, List.length_replicate, hfl]; omega
  unfold piece
  by_cases hv : s.validSize ≤ pos
  · rw [if_pos hv, R.subU_ok (by omega), R.ok_bind, Nat.min_eq_left (by omega)]
    refine ⟨_, rfl, by simp; omega, ?_⟩
    refine Blocks.prefix_of_bytes (by simp) (by simp; omega) fun i hi => ?_
    rw [List.length_replicate] at hi
    rw [List.getElem?_replicate, if_pos hi, contents, List.getElem?_append_right (by rw [List.length_take]; omega),
      List.getElem?_replicate, if_pos]
    rw [List.length_take, hfl]; omega
  · obtain ⟨off, r, h1, h2, h3, h4, h5, h6⟩ := Layout.at_pos (runLen bs) runRange (Run.bytes volume bs) 0 runs hbl (pos := pos) (by omega)
    rw [Nat.zero_add] at h2
    have hr : (runRange off r).logical = off ∧ (runRange off r).count = r.count := by cases r <;> exact ⟨rfl, rfl⟩
    have hlen : r.count * bs = runLen bs r := rfl
    rw [if_neg hv, get_range hh h2 ⟨h3, h4⟩ (by omega), R.ok_bind]
    simp only [Fat.orErr, R.ok_bind]
    rw [hr.2, R.mulU_ok (by omega), R.ok_bind, hr.1, R.addU_ok (by omega), R.ok_bind, R.subU_ok h3, R.ok_bind,
      R.subU_ok (by omega), R.ok_bind, R.subU_ok (by omega), R.ok_bind, hlen]
    generalize hw : min n (min (off + runLen bs r) s.validSize - off - (pos - off)) = w
    have hw1 : 0 < w := by omega
    have hw2 : pos - off + w ≤ runLen bs r := by omega
    have hw3 : pos + w ≤ s.validSize := by omega
    have hw4 : w ≤ n := by omega
    have hrd : readRange volume bs (runRange off r) (pos - off) w = .ok (((r.bytes volume bs).drop (pos - off)).take w) := by
      cases r with
      | data count lcn =>
        have := hin count lcn h1
        rw [Nat.add_mul] at this
        simp only [readRange, runRange, Bool.false_eq_true, if_false]
        simp only [runLen, Run.count] at hw2
        rw [R.mulU_ok (by omega), R.ok_bind, R.addU_ok (by omega), R.ok_bind, R.pure_eq]
        congr 1
        simp only [Blocks.readAt, Run.bytes]
        rw [List.drop_take, List.drop_drop, List.take_take, Nat.min_eq_left (by omega)]
      | sparse count =>
        simp only [runLen, Run.count] at hw2
        simp only [readRange, runRange, if_true, Run.bytes, List.drop_replicate, List.take_replicate]
        congr 2; omega
    rw [hrd, R.ok_bind]
    have hol : (((r.bytes volume bs).drop (pos - off)).take w).length = w := by
      rw [List.length_take, List.length_drop, hbl r h1]; omega
    refine ⟨_, rfl, fun e => by rw [e] at hol; simp at hol; omega, ?_⟩
    refine Blocks.prefix_of_bytes (by omega) (by omega) fun i hi => ?_
    rw [hol] at hi
    rw [List.getElem?_take_of_lt hi, List.getElem?_drop, ← h6 i (by omega), contents,
      List.getElem?_append_left (by rw [List.length_take]; omega), List.getElem?_take_of_lt (by omega)]

end Keramics.Ntfs
