import Verif.Model.Hashes
import Verif.Spec.Hashes
import Verif.Lemmas.Digest
import Mathlib.Tactic.IntervalCases

namespace Keramics.Digest
open Keramics.Spec

theorem foldl_map_hom {α β γ} (φ : β → γ) (f : β → α → β) (g : γ → α → γ)
    (l : List α) (h : ∀ b, ∀ a ∈ l, φ (f b a) = g (φ b) a) (b : β) :
    φ (l.foldl f b) = l.foldl g (φ b) := by
  induction l generalizing b with
  | nil => rfl
  | cons x xs ih =>
    simp only [List.foldl_cons]
    rw [ih (fun b a ha => h b a (List.mem_cons_of_mem _ ha)), h b x (List.mem_cons_self ..)]

theorem mdHash_map {H W : Type} (φ : H → W) (c : H → List Byte → H) (c' : W → List Byte → W)
    (B : Nat) (i : H) (o : H → List Byte) (o' : W → List Byte) (lf : Nat → List Byte)
    (h : ∀ a b, φ (c a b) = c' (φ a) b) (ho : ∀ a, o a = o' (φ a)) (msg : List Byte) :
    mdHash c B i o lf msg = mdHash c' B (φ i) o' lf msg := by
  unfold mdHash foldBlocks
  rw [ho]
  congr 1
  apply foldl_map_hom
  intro b a _
  exact h b _

theorem foldlM_ok {α β} {f : β → α → R β} {g : β → α → β} {l : List α}
    (h : ∀ b, ∀ a ∈ l, f b a = .ok (g b a)) (b : β) : l.foldlM f b = .ok (l.foldl g b) := by
  induction l generalizing b with
  | nil => rfl
  | cons x xs ih =>
    rw [List.foldlM_cons, h b x (List.mem_cons_self ..), R.ok_bind, List.foldl_cons]
    exact ih (fun b a ha => h b a (List.mem_cons_of_mem _ ha)) _

theorem mapM_ok {α β} {f : α → R β} {g : α → β} {l : List α}
    (h : ∀ a ∈ l, f a = .ok (g a)) : l.mapM f = .ok (l.map g) := by
  induction l with
  | nil => rfl
  | cons x xs ih =>
    rw [List.mapM_cons, h x (List.mem_cons_self ..), R.ok_bind,
      ih (fun a ha => h a (List.mem_cons_of_mem _ ha)), R.ok_bind]
    rfl

/-- Word `t` of the block at `off`. -/
theorem loadWords_ok (w k : Nat) (conv : List Byte → Nat) (rd : List Byte → Nat → R Nat)
    (hrd : ∀ d o, rd d o = do return conv (← R.slice d o (o + k)))
    (data : List Byte) (off : Nat) (h : off + k * 16 ≤ data.length) :
    loadWords w k rd data off = .ok ((List.range 16).map fun t =>
      BitVec.ofNat w (conv ((((data.drop off).take (k * 16)).drop (k * t)).take k))) := by
  unfold loadWords
  apply mapM_ok
  intro t ht
  have ht := List.mem_range.mp ht
  have hk : k * t + k ≤ k * 16 := by nlinarith
  rw [hrd, R.slice_ok (by omega) (by omega)]
  simp only [R.ok_bind, R.pure_eq, R.ok.injEq]
  congr 2
  rw [List.drop_take, List.drop_drop, List.take_take]
  congr 1; omega

theorem extendWords_ok {w : Nat} (F : BitVec w → BitVec w → BitVec w → BitVec w → BitVec w)
    (o1 o2 o3 o4 total : Nat) (words : List (BitVec w)) (W : Nat → BitVec w)
    (h1 : 0 < o1 ∧ o1 ≤ 16) (h2 : 0 < o2 ∧ o2 ≤ 16) (h3 : 0 < o3 ∧ o3 ≤ 16) (h4 : 0 < o4 ∧ o4 ≤ 16)
    (ht : 16 ≤ total) (hw : words = (List.range 16).map W)
    (hW : ∀ t, 16 ≤ t → W t = F (W (t - o1)) (W (t - o2)) (W (t - o3)) (W (t - o4))) :
    extendWords F o1 o2 o3 o4 total words = .ok ((List.range total).map W) := by
  have key : ∀ k, 16 + k ≤ total → ((List.range' 16 k).foldlM (fun v i => do
      let a ← R.get v (i - o1)
      let b ← R.get v (i - o2)
      let c ← R.get v (i - o3)
      let d ← R.get v (i - o4)
      R.set v i (F a b c d)) (words ++ List.replicate (total - 16) 0) : R (List (BitVec w)))
      = .ok ((List.range (16 + k)).map W ++ List.replicate (total - (16 + k)) 0) := by
    intro k hk
    induction k with
    | zero => rw [hw]; rfl
    | succ k ih =>
      rw [show List.range' 16 (k + 1) = List.range' 16 k ++ [16 + k] by
        rw [List.range'_concat]; simp, List.foldlM_append, ih (by omega), R.ok_bind]
      have hget : ∀ o, 0 < o ∧ o ≤ 16 → R.get
          ((List.range (16 + k)).map W ++ List.replicate (total - (16 + k)) 0) (16 + k - o)
          = .ok (W (16 + k - o)) := by
        intro o ho
        rw [R.get_ok (by simp; omega), List.getElem_append_left (by simp; omega)]
        simp
      simp only [List.foldlM_cons, List.foldlM_nil, hget _ h1, hget _ h2, hget _ h3, hget _ h4,
        R.ok_bind]
      rw [R.set_ok (by simp; omega)]
      simp only [R.ok_bind, R.pure_eq, R.ok.injEq]
      rw [← hW (16 + k) (by omega), List.set_append_right _ _ (by simp)]
      simp only [List.length_map, List.length_range, Nat.sub_self]
      rw [show total - (16 + k) = total - (16 + (k + 1)) + 1 by omega, List.replicate_succ,
        List.set_cons_zero, ← Nat.add_assoc, List.range_succ, List.map_append]
      simp [Nat.add_assoc]
  unfold extendWords
  rw [key (total - 16) (by omega)]
  have : 16 + (total - 16) = total := by omega
  rw [this]; simp

theorem get_map_range {β} (f : Nat → β) (n i : Nat) (h : i < n) :
    R.get ((List.range n).map f) i = .ok (f i) := by
  rw [R.get_ok (by simpa using h)]; simp

theorem ch_or {w : Nat} (x y z : BitVec w) : (x &&& y) ||| (~~~ x &&& z) = Ch x y z := by
  unfold Ch
  apply BitVec.eq_of_getLsbD_eq
  intro i hi
  simp only [BitVec.getLsbD_or, BitVec.getLsbD_and, BitVec.getLsbD_xor, BitVec.getLsbD_not, hi]
  cases x.getLsbD i <;> cases y.getLsbD i <;> cases z.getLsbD i <;> rfl

theorem maj_or {w : Nat} (x y z : BitVec w) :
    (x &&& y) ||| (x &&& z) ||| (y &&& z) = Maj x y z := by
  unfold Maj
  apply BitVec.eq_of_getLsbD_eq
  intro i hi
  simp only [BitVec.getLsbD_or, BitVec.getLsbD_and, BitVec.getLsbD_xor]
  cases x.getLsbD i <;> cases y.getLsbD i <;> cases z.getLsbD i <;> rfl

/-! ### SHA-1 -/

def toW5 (h : H5) : W5 := ⟨h.h0, h.h1, h.h2, h.h3, h.h4⟩
def ofW5 (s : W5) : H5 := ⟨s.a, s.b, s.c, s.d, s.e⟩

theorem sha1Round_ok (W : Nat → BitVec 32) (h : H5) (i : Nat) (hi : i < 80) :
    sha1Round ((List.range 80).map W) h i = .ok (ofW5 (sha1Step W (toW5 h) i)) := by
  unfold sha1Round
  simp only [get_map_range _ _ _ hi, R.ok_bind, R.pure_eq, R.ok.injEq, ofW5, sha1Step, toW5,
    H5.mk.injEq, and_true]
  rw [ch_or, maj_or]
  unfold sha1F sha1K
  by_cases c1 : i < 20
  · simp only [c1, if_true]; ac_rfl
  · by_cases c2 : i < 40
    · simp only [c1, c2, if_true, if_false, Parity]; ac_rfl
    · by_cases c3 : i < 60
      · simp only [c1, c2, c3, if_true, if_false]; ac_rfl
      · simp only [c1, c2, c3, if_false, Parity]; ac_rfl

theorem sha1_ok : sha1.Ok (fun h b => ofW5 (sha1Compress (toW5 h) b)) (beBytes 8) 8 where
  transform h data off hoff := by
    have hoff : off + 64 ≤ data.length := hoff
    show sha1Transform h data off = _
    unfold sha1Transform
    rw [loadWords_ok 32 4 beNat u32be (fun _ _ => rfl) data off (by omega), R.ok_bind,
      extendWords_ok (W := sha1W (beWord 32 4 ((data.drop off).take 64)))]
    · rw [R.ok_bind, foldlM_ok (g := fun h i =>
        ofW5 (sha1Step (sha1W (beWord 32 4 ((data.drop off).take 64))) (toW5 h) i))]
      · simp only [R.ok_bind, R.pure_eq, R.ok.injEq]
        have := foldl_map_hom toW5 (fun h i =>
          ofW5 (sha1Step (sha1W (beWord 32 4 ((data.drop off).take 64))) (toW5 h) i))
          (sha1Step (sha1W (beWord 32 4 ((data.drop off).take 64)))) (List.range 80)
          (fun _ _ _ => rfl) h
        show _ = ofW5 (sha1Compress (toW5 h) ((data.drop off).take 64))
        unfold sha1Compress
        simp only
        rw [← this]; rfl
      · intro b a ha
        exact sha1Round_ok _ _ _ (List.mem_range.mp ha)
    · decide
    · decide
    · decide
    · decide
    · decide
    · apply List.map_congr_left
      intro t ht
      have := List.mem_range.mp ht
      rw [sha1W]; simp only [this, dif_pos]; rfl
    · intro t ht
      conv => lhs; rw [sha1W]
      rw [dif_neg (by omega)]
  limit := rfl
  L8 := by decide
  big := by decide
  sizeLen n := by simp [sha1]
  field n _ := by simp [sha1]

/-! ### SHA-2 -/

def toW8 {w : Nat} (h : H8 w) : W8 w := ⟨h.h0, h.h1, h.h2, h.h3, h.h4, h.h5, h.h6, h.h7⟩
def ofW8 {w : Nat} (s : W8 w) : H8 w := ⟨s.a, s.b, s.c, s.d, s.e, s.f, s.g, s.h⟩

section
variable {w : Nat} (P : Sha2Consts w)

def σ0 (x : BitVec w) : BitVec w := x.rotateRight P.e0.1 ^^^ x.rotateRight P.e0.2.1 ^^^ x >>> P.e0.2.2
def σ1 (x : BitVec w) : BitVec w := x.rotateRight P.e1.1 ^^^ x.rotateRight P.e1.2.1 ^^^ x >>> P.e1.2.2
def S0 (x : BitVec w) : BitVec w :=
  x.rotateRight P.s0.1 ^^^ x.rotateRight P.s0.2.1 ^^^ x.rotateRight P.s0.2.2
def S1 (x : BitVec w) : BitVec w :=
  x.rotateRight P.s1.1 ^^^ x.rotateRight P.s1.2.1 ^^^ x.rotateRight P.s1.2.2

theorem sha2Round_ok (K W : Nat → BitVec w) (hK : P.cubeRoots = (List.range P.rounds).map K)
    (h : H8 w) (i : Nat) (hi : i < P.rounds) :
    P.round ((List.range P.rounds).map W) h i
      = .ok (ofW8 (sha2Step (S0 P) (S1 P) K W (toW8 h) i)) := by
  unfold Sha2Consts.round
  simp only [hK, get_map_range _ _ _ hi, R.ok_bind, R.pure_eq, R.ok.injEq]
  rfl

theorem sha2Transform_ok (k : Nat) (rd : List Byte → Nat → R Nat)
    (hrd : ∀ d o, rd d o = do return beNat (← R.slice d o (o + k))) (K : Nat → BitVec w)
    (hK : P.cubeRoots = (List.range P.rounds).map K) (hr : 16 ≤ P.rounds)
    (h : H8 w) (data : List Byte) (off : Nat) (hoff : off + k * 16 ≤ data.length) :
    P.transform k rd h data off = .ok (ofW8 (sha2Compress k P.rounds (σ0 P) (σ1 P) (S0 P) (S1 P) K
      (toW8 h) ((data.drop off).take (k * 16)))) := by
  unfold Sha2Consts.transform
  generalize hblk : (data.drop off).take (k * 16) = blk
  rw [loadWords_ok w k beNat rd hrd data off (by omega), R.ok_bind, hblk,
    extendWords_ok (W := sha2W (σ0 P) (σ1 P) (beWord w k blk))]
  · rw [R.ok_bind, foldlM_ok (g := fun h i =>
      ofW8 (sha2Step (S0 P) (S1 P) K (sha2W (σ0 P) (σ1 P) (beWord w k blk)) (toW8 h) i))]
    · simp only [R.ok_bind, R.pure_eq, R.ok.injEq]
      have := foldl_map_hom toW8 (fun h i =>
        ofW8 (sha2Step (S0 P) (S1 P) K (sha2W (σ0 P) (σ1 P) (beWord w k blk)) (toW8 h) i))
        (sha2Step (S0 P) (S1 P) K (sha2W (σ0 P) (σ1 P) (beWord w k blk))) (List.range P.rounds)
        (fun _ _ _ => rfl) h
      unfold sha2Compress
      simp only
      rw [← this]; rfl
    · intro b a ha
      exact sha2Round_ok P K _ hK _ _ (List.mem_range.mp ha)
  · decide
  · decide
  · decide
  · decide
  · exact hr
  · apply List.map_congr_left
    intro t ht
    have := List.mem_range.mp ht
    rw [sha2W]; simp only [this, dif_pos]; rfl
  · intro t ht
    conv => lhs; rw [sha2W]
    rw [dif_neg (by omega)]
    show σ1 P _ + _ + σ0 P _ + _ = P.extend _ _ _ _
    unfold Sha2Consts.extend
    show _ = _ + σ0 P _ + _ + σ1 P _
    ac_rfl

end

/-! ### Constants of SHA-2 -/

/-- The first 80 primes. -/
def primes80 : List Nat :=
  [2, 3, 5, 7, 11, 13, 17, 19, 23, 29, 31, 37, 41, 43, 47, 53, 59, 61, 67, 71, 73, 79, 83, 89, 97,
   101, 103, 107, 109, 113, 127, 131, 137, 139, 149, 151, 157, 163, 167, 173, 179, 181, 191, 193,
   197, 199, 211, 223, 227, 229, 233, 239, 241, 251, 257, 263, 269, 271, 277, 281, 283, 293, 307,
   311, 313, 317, 331, 337, 347, 349, 353, 359, 367, 373, 379, 383, 389, 397, 401, 409]

/-- Trial division. -/
def isPrime (p : Nat) : Bool := decide (2 ≤ p) && (List.range p).all fun m => m < 2 || p % m != 0

theorem isPrime_iff (p : Nat) : isPrime p = true ↔ p.Prime := by
  rw [Nat.prime_def]
  unfold isPrime
  simp only [Bool.and_eq_true, decide_eq_true_eq, List.all_eq_true, List.mem_range, Bool.or_eq_true,
    bne_iff_ne, ne_eq]
  constructor
  · rintro ⟨h2, h⟩
    refine ⟨h2, fun m hm => ?_⟩
    by_cases hlt : m < p
    · rcases h m hlt with h | h
      · have : m ≠ 0 := by rintro rfl; simp at hm; omega
        left; omega
      · exact absurd (Nat.mod_eq_zero_of_dvd hm) h
    · right
      have := Nat.le_of_dvd (by omega) hm
      omega
  · rintro ⟨h2, h⟩
    refine ⟨h2, fun m hm => ?_⟩
    by_cases hm2 : m < 2
    · exact Or.inl hm2
    · right
      intro hz
      rcases h m (Nat.dvd_of_mod_eq_zero hz) with h | h <;> omega

theorem count_prime (n : Nat) : Nat.count Nat.Prime n = ((List.range n).filter isPrime).length := by
  induction n with
  | zero => rfl
  | succ n ih =>
    rw [Nat.count_succ, ih, List.range_succ, List.filter_append, List.length_append]
    congr 1
    by_cases h : n.Prime
    · rw [if_pos h, List.filter_cons_of_pos ((isPrime_iff n).2 h)]; rfl
    · rw [if_neg h, List.filter_cons_of_neg (fun hh => h ((isPrime_iff n).1 hh))]; rfl

theorem primes80_eq : (List.range 410).filter isPrime = primes80 := by decide +kernel

theorem prime_eq (i : Nat) (hi : i < 80) : prime i = primes80[i]'(by exact hi) := by
  have hl : primes80.length = 80 := rfl
  have hmem : primes80[i]'(by exact hi) ∈ primes80 := List.getElem_mem _
  have hp : primes80[i]'(by exact hi) ∈ (List.range 410).filter isPrime := by
    rw [primes80_eq]; exact hmem
  rw [List.mem_filter, isPrime_iff] at hp
  have hc : Nat.count Nat.Prime (primes80[i]'(by exact hi)) = i := by
    rw [count_prime]
    have : ∀ j : Fin 80, ((List.range (primes80[j.1]'(by exact j.2))).filter isPrime).length = j.1 := by
      decide +kernel
    exact this ⟨i, hi⟩
  have := Nat.nth_count (p := Nat.Prime) hp.2
  rw [hc] at this
  exact this

theorem floorRoot_eq (k n r : Nat) (hk : k ≠ 0) (h1 : r ^ k ≤ n) (h2 : n < (r + 1) ^ k) :
    floorRoot k n = r := by
  unfold floorRoot
  rw [Nat.findGreatest_eq_iff]
  refine ⟨?_, fun _ => h1, ?_⟩
  · exact le_trans (Nat.le_self_pow hk r) h1
  · intro m hm _ hc
    have : (r + 1) ^ k ≤ m ^ k := Nat.pow_le_pow_left hm k
    omega

/-- Newton-free certificate check: `r` is the integer root and `c` its low bits. -/
def rootOk (k w p r c : Nat) : Bool :=
  decide (r ^ k ≤ p * 2 ^ (k * w)) && decide (p * 2 ^ (k * w) < (r + 1) ^ k) && r % 2 ^ w == c

theorem fracRoot_eq (k w p r c : Nat) (hk : k ≠ 0) (h : rootOk k w p r c = true) :
    fracRoot k w p = c := by
  simp only [rootOk, Bool.and_eq_true, decide_eq_true_eq, beq_iff_eq] at h
  unfold fracRoot
  rw [floorRoot_eq k _ r hk h.1.1 h.1.2, h.2]

/-- Integer part of the root of a small number. -/
def intRoot (k p : Nat) : Nat := ((List.range 64).filter fun s => s ^ k ≤ p).length - 1

theorem table_eq (k w n : Nat) (hk : k ≠ 0) (hn : n ≤ 80) (tbl : List (BitVec w)) (hl : tbl.length = n)
    (h : ∀ j : Fin n, rootOk k w (primes80[j.1]'(Nat.lt_of_lt_of_le j.2 hn))
      (intRoot k (primes80[j.1]'(Nat.lt_of_lt_of_le j.2 hn)) * 2 ^ w
        + (tbl[j.1]'(by rw [hl]; exact j.2)).toNat)
      (tbl[j.1]'(by rw [hl]; exact j.2)).toNat = true) :
    tbl = (List.range n).map fun t => BitVec.ofNat w (fracRoot k w (prime t)) := by
  apply List.ext_getElem
  · simp [hl]
  · intro i h1 h2
    have hi : i < n := by rw [← hl]; exact h1
    simp only [List.getElem_map, List.getElem_range]
    rw [prime_eq i (by omega), fracRoot_eq k w _ _ _ hk (h ⟨i, hi⟩)]
    simp

theorem sha256K_table : sha256CubeRoots = (List.range 64).map sha256K :=
  table_eq 3 32 64 (by decide) (by decide) _ rfl (by decide +kernel)

theorem sha512K_table : sha512CubeRoots = (List.range 80).map sha512K :=
  table_eq 3 64 80 (by decide) (by decide) _ rfl (by decide +kernel)

theorem init_eq (w : Nat) (h : H8 w) (f : Nat → Nat)
    (hl : [h.h0, h.h1, h.h2, h.h3, h.h4, h.h5, h.h6, h.h7]
      = (List.range 8).map fun t => BitVec.ofNat w (f t)) :
    toW8 h = initial f := by
  simp only [List.range, List.range.loop, List.map_cons, List.map_nil, List.cons.injEq] at hl
  obtain ⟨h0, h1, h2, h3, h4, h5, h6, h7, -⟩ := hl
  simp only [toW8, initial, h0, h1, h2, h3, h4, h5, h6, h7]

theorem sha256_init : toW8 sha256.init = initial fun i => fracRoot 2 32 (prime i) :=
  init_eq 32 _ _ (table_eq 2 32 8 (by decide) (by decide) _ rfl (by decide +kernel))

theorem sha512_init : toW8 sha512.init = initial fun i => fracRoot 2 64 (prime i) :=
  init_eq 64 _ _ (table_eq 2 64 8 (by decide) (by decide) _ rfl (by decide +kernel))

/-- 64-bit fractional parts whose low halves are the SHA-224 initial values. -/
def sha224Roots : List Nat :=
  [0xcbbb9d5dc1059ed8, 0x629a292a367cd507, 0x9159015a3070dd17, 0x152fecd8f70e5939,
   0x67332667ffc00b31, 0x8eb44a8768581511, 0xdb0c2e0d64f98fa7, 0x47b5481dbefa4fa4]

theorem sha224_init : toW8 sha224.init = initial fun i => fracRoot 2 64 (prime (8 + i)) := by
  have key : ∀ j : Fin 8, fracRoot 2 64 (prime (8 + j.1)) = sha224Roots[j.1]'(by exact j.2) := by
    intro j
    rw [prime_eq _ (by omega)]
    have : ∀ j : Fin 8, rootOk 2 64 (primes80[8 + j.1]'(by have := j.2; simp [primes80]; omega))
        (intRoot 2 (primes80[8 + j.1]'(by have := j.2; simp [primes80]; omega)) * 2 ^ 64
          + sha224Roots[j.1]'(by exact j.2)) (sha224Roots[j.1]'(by exact j.2)) = true := by
      decide +kernel
    exact fracRoot_eq 2 64 _ _ _ (by decide) (this j)
  have k0 := key 0; have k1 := key 1; have k2 := key 2; have k3 := key 3
  have k4 := key 4; have k5 := key 5; have k6 := key 6; have k7 := key 7
  simp only [Fin.isValue, Fin.coe_ofNat_eq_mod, Nat.reduceMod] at k0 k1 k2 k3 k4 k5 k6 k7
  simp only [initial, k0, k1, k2, k3, k4, k5, k6, k7]
  decide +kernel

theorem sha256_ok : sha256.Ok (fun h b => ofW8 (sha256Compress (toW8 h) b)) (beBytes 8) 8 where
  transform h data off hoff :=
    sha2Transform_ok sha256Consts 4 u32be (fun _ _ => rfl) sha256K sha256K_table (by decide)
      h data off hoff
  limit := rfl
  L8 := by decide
  big := by decide
  sizeLen n := by simp [sha256]
  field n _ := by simp [sha256]

theorem sha224_ok : sha224.Ok (fun h b => ofW8 (sha256Compress (toW8 h) b)) (beBytes 8) 8 where
  transform h data off hoff :=
    sha2Transform_ok sha256Consts 4 u32be (fun _ _ => rfl) sha256K sha256K_table (by decide)
      h data off hoff
  limit := rfl
  L8 := by decide
  big := by decide
  sizeLen n := by simp [sha224]
  field n _ := by simp [sha224]

theorem leBytes_add (a b v : Nat) (h : v < 256 ^ a) :
    leBytes (a + b) v = leBytes a v ++ List.replicate b 0 := by
  induction a generalizing v with
  | zero =>
    have : v = 0 := by simpa using h
    subst this
    simp only [Nat.zero_add, leBytes, List.nil_append]
    induction b with
    | zero => rfl
    | succ b ih => simp [leBytes, ih, List.replicate_succ]
  | succ a ih =>
    rw [show a + 1 + b = (a + b) + 1 by omega]
    simp only [leBytes, List.cons_append]
    rw [ih (v / 256) (by rw [Nat.pow_succ] at h; omega)]

theorem sha512_ok : sha512.Ok (fun h b => ofW8 (sha512Compress (toW8 h) b)) (beBytes 16) 16 where
  transform h data off hoff :=
    sha2Transform_ok sha512Consts 8 u64be (fun _ _ => rfl) sha512K sha512K_table (by decide)
      h data off hoff
  limit := rfl
  L8 := by decide
  big := by decide
  sizeLen n := by simp [sha512]
  field n hn := by
    show beBytes 16 n = List.replicate 8 0 ++ beBytes 8 n
    unfold beBytes
    rw [leBytes_add 8 8 n (by simpa using hn)]
    simp

end Keramics.Digest
