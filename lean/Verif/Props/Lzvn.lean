import Verif.Lemmas.Lz
import Verif.Model.Lzvn
import Verif.Spec.Lzvn

/-!
C25: LZVN decompression.
-/

namespace Keramics.Lzvn
open Spec.Lzvn Spec.Lz

theorem prefix_copy (d n : Nat) (out : List Byte) : out <+: Spec.Lz.copy d n out := by
  induction n generalizing out with
  | zero => exact List.prefix_rfl
  | succ n ih => exact List.IsPrefix.trans (List.prefix_append _ _) (ih _)

theorem prefix_run (out : List Byte) (os : List Op) : out <+: run out os := by
  induction os generalizing out with
  | nil => exact List.prefix_rfl
  | cons op os ih =>
    refine List.IsPrefix.trans ?_ (ih _)
    cases op with
    | literal l => exact List.prefix_append _ _
    | copy d n => exact prefix_copy d n out

theorem run_full {out : List Byte} {os : List Op} (h : (run out os).length ≤ out.length) :
    run out os = out :=
  ((prefix_run out os).eq_of_length_le h).symm

theorem byte_toNat {n : Nat} (h : n < 256) : (Spec.Lzvn.byte n).toNat = n := by
  rw [Spec.Lzvn.byte, BitVec.toNat_ofNat]; omega

/-! ## Opcode arithmetic -/

theorem op_lmd_arith : ∀ l < 4, ∀ m < 8, ∀ d < 8,
    (64 * l + 8 * m + d < 256 ∧ ((64 * l + 8 * m + d) &&& 0xc0) >>> 6 = l ∧
    ((64 * l + 8 * m + d) &&& 0x38) >>> 3 = m ∧ (64 * l + 8 * m + d) &&& 0x07 = d) := by
  decide +kernel

theorem op_ds : ∀ l < 4, ∀ m < 8, ∀ d < 6, 2 * l + m ≤ 7 →
    opTypes[64 * l + 8 * m + d]? = some .ds := by
  decide +kernel

theorem op_dl : ∀ l < 4, ∀ m < 8, 2 * l + m ≤ 7 → opTypes[64 * l + 8 * m + 7]? = some .dl := by
  decide +kernel

theorem op_dp : ∀ l < 4, ∀ m < 8, 2 * l + m ≤ 7 → 1 ≤ l →
    opTypes[64 * l + 8 * m + 6]? = some .dp := by
  decide +kernel

theorem op_lmd (l : Nat) (hl : l < 4) (m : Nat) (hm : m < 8) (d : Nat) (hd : d < 8)
    (h : 2 * l + m ≤ 7) :
    (64 * l + 8 * m + d < 256 ∧ ((64 * l + 8 * m + d) &&& 0xc0) >>> 6 = l ∧
    ((64 * l + 8 * m + d) &&& 0x38) >>> 3 = m ∧ (64 * l + 8 * m + d) &&& 0x07 = d ∧
    (d < 6 → opTypes[64 * l + 8 * m + d]? = some .ds) ∧
    (d = 7 → opTypes[64 * l + 8 * m + d]? = some .dl) ∧
    (d = 6 → 1 ≤ l → opTypes[64 * l + 8 * m + d]? = some .dp)) := by
  obtain ⟨a, b, c, e⟩ := op_lmd_arith l hl m hm d hd
  refine ⟨a, b, c, e, fun h6 => op_ds l hl m hm d h6 h, ?_, ?_⟩
  · rintro rfl; exact op_dl l hl m hm h
  · rintro rfl; exact op_dp l hl m hm h

theorem op_med : ∀ l < 4, ∀ m < 8,
    ((160 + 8 * l + m) &&& 0x18) >>> 3 = l ∧ (160 + 8 * l + m) &&& 0x07 = m ∧
    opTypes[160 + 8 * l + m]? = some .dm := by
  decide +kernel

theorem op_small : ∀ n < 16, 1 ≤ n → ((224 + n) &&& 0x0f = n ∧ opTypes[224 + n]? = some .ls ∧
    (240 + n) &&& 0x0f = n ∧ opTypes[240 + n]? = some .ms) := by
  decide +kernel

theorem med_value : ∀ v < 256, v &&& 0x03 = v % 4 ∧ (v &&& 0xfc) >>> 2 = v / 4 := by
  decide +kernel

theorem or_shift (k a b : Nat) (hb : b < 2 ^ k) : (a <<< k) ||| b = a * 2 ^ k + b := by
  rw [Nat.shiftLeft_eq]
  have := Nat.two_pow_add_eq_or_of_lt hb a
  rw [Nat.mul_comm a (2 ^ k), this]

theorem get_some {α} {l : List α} {i : Nat} {a : α} (h : l[i]? = some a) : R.get l i = .ok a := by
  simp [R.get, h]

/-! ## One token -/

/-- The literal a token carries. -/
def lit : Token → List Byte
  | .small l _ _ => l
  | .medium l _ _ => l
  | .large l _ _ => l
  | .previous l _ => l
  | .smallLiteral l => l
  | .largeLiteral l => l
  | _ => []

/-- The match size of a token. -/
def msize : Token → Nat
  | .small _ _ n => n
  | .medium _ _ n => n
  | .large _ _ n => n
  | .previous _ n => n
  | .smallMatch n => n
  | .largeMatch n => n
  | _ => 0

theorem head_ok {data post : List Byte} {c prev : Nat} (t : Token) (hw : t.wf)
    (hd : data.drop c = t.encode ++ post) :
    ∃ op, R.get data c = .ok op ∧ ∃ c', c' + (lit t).length = c + t.encode.length ∧
      readHead data op.toNat prev (c + 1) = .ok (.go (lit t).length (msize t) (t.distance prev) c') ∧
      data.drop c' = lit t ++ post ∧ c < c' := by
  have hne : t.encode ≠ [] := by cases t <;> simp [Token.encode]
  have hL := R.length_of_drop hd hne
  cases t with
  | small l d n =>
    simp only [Token.wf] at hw
    simp only [Token.encode, List.cons_append, List.nil_append, List.length_cons] at hd hL ⊢
    obtain ⟨m0, m1, m2, m3, m4, _⟩ := op_lmd l.length (by omega) (n - 3) (by omega) (d / 256) (by omega)
      (by omega)
    have hd1 := R.drop_succ_of_drop hd
    have hd2 := R.drop_succ_of_drop hd1
    refine ⟨_, R.get_of_drop hd, c + 2, by simp [lit]; omega, ?_, hd2, by omega⟩
    unfold readHead
    rw [byte_toNat m0, get_some (m4 (by omega)), R.ok_bind]
    simp only
    rw [R.require_true (by omega), R.ok_bind, R.get_of_drop hd1, R.ok_bind, m1, m2, m3,
      byte_toNat (by omega), or_shift 8 _ _ (by omega)]
    simp only [R.pure_eq, lit, msize, Token.distance]
    rw [show n - 3 + 3 = n by omega, show d / 256 * 2 ^ 8 + d % 256 = d by omega]
  | medium l d n =>
    simp only [Token.wf] at hw
    simp only [Token.encode, List.cons_append, List.nil_append, List.length_cons] at hd hL ⊢
    obtain ⟨m1, m2, m3⟩ := op_med l.length (by omega) ((n - 3) / 4) (by omega)
    obtain ⟨v1, v2⟩ := med_value (4 * (d % 64) + (n - 3) % 4) (by omega)
    have hd1 := R.drop_succ_of_drop hd
    have hd2 := R.drop_succ_of_drop hd1
    have hd3 := R.drop_succ_of_drop hd2
    refine ⟨_, R.get_of_drop hd, c + 3, by simp [lit]; omega, ?_, hd3, by omega⟩
    unfold readHead
    rw [byte_toNat (by omega), get_some m3, R.ok_bind]
    simp only
    rw [R.subU_ok (by omega), R.ok_bind, R.require_true (by omega), R.ok_bind, R.get_of_drop hd1,
      R.ok_bind, R.get_of_drop hd2, R.ok_bind, m1, m2, byte_toNat (by omega), byte_toNat (by omega),
      v1, v2, or_shift 2 _ _ (by omega), or_shift 6 _ _ (by omega)]
    simp only [R.pure_eq, lit, msize, Token.distance]
    rw [show (n - 3) / 4 * 2 ^ 2 + (4 * (d % 64) + (n - 3) % 4) % 4 + 3 = n by omega,
      show d / 64 * 2 ^ 6 + (4 * (d % 64) + (n - 3) % 4) / 4 = d by omega]
  | large l d n =>
    simp only [Token.wf] at hw
    simp only [Token.encode, List.cons_append, List.nil_append, List.length_cons] at hd hL ⊢
    obtain ⟨m0, m1, m2, m3, _, m4, _⟩ := op_lmd l.length (by omega) (n - 3) (by omega) 7 (by omega)
      (by omega)
    have hd1 := R.drop_succ_of_drop hd
    have hd2 := R.drop_succ_of_drop hd1
    have hd3 := R.drop_succ_of_drop hd2
    refine ⟨_, R.get_of_drop hd, c + 3, by simp [lit]; omega, ?_, hd3, by omega⟩
    unfold readHead
    rw [byte_toNat m0, get_some (m4 rfl), R.ok_bind]
    simp only
    rw [R.subU_ok (by omega), R.ok_bind, R.require_true (by omega), R.ok_bind, R.get_of_drop hd1,
      R.ok_bind, R.get_of_drop hd2, R.ok_bind, m1, m2,
      byte_toNat (by omega), byte_toNat (by omega), or_shift 8 _ _ (by omega)]
    simp only [R.pure_eq, lit, msize, Token.distance]
    rw [show n - 3 + 3 = n by omega, show d / 256 * 2 ^ 8 + d % 256 = d by omega]
  | previous l n =>
    simp only [Token.wf] at hw
    simp only [Token.encode, List.cons_append, List.nil_append, List.length_cons] at hd hL ⊢
    obtain ⟨m0, m1, m2, m3, _, _, m4⟩ := op_lmd l.length (by omega) (n - 3) (by omega) 6 (by omega)
      (by omega)
    have hd1 := R.drop_succ_of_drop hd
    refine ⟨_, R.get_of_drop hd, c + 1, by simp [lit]; omega, ?_, hd1, by omega⟩
    unfold readHead
    rw [byte_toNat m0, get_some (m4 rfl (by omega)), R.ok_bind]
    simp only
    rw [m1, m2]
    simp only [R.pure_eq, lit, msize, Token.distance]
    rw [show n - 3 + 3 = n by omega]
  | smallLiteral l =>
    simp only [Token.wf] at hw
    simp only [Token.encode, List.cons_append, List.nil_append, List.length_cons] at hd hL ⊢
    obtain ⟨m1, m2, _⟩ := op_small l.length (by omega) (by omega)
    have hd1 := R.drop_succ_of_drop hd
    refine ⟨_, R.get_of_drop hd, c + 1, by simp [lit]; omega, ?_, hd1, by omega⟩
    unfold readHead
    rw [byte_toNat (by omega), get_some m2, R.ok_bind]
    simp only
    rw [m1]
    rfl
  | largeLiteral l =>
    simp only [Token.wf] at hw
    simp only [Token.encode, List.cons_append, List.nil_append, List.length_cons] at hd hL ⊢
    have hd1 := R.drop_succ_of_drop hd
    have hd2 := R.drop_succ_of_drop hd1
    refine ⟨_, R.get_of_drop hd, c + 2, by simp [lit]; omega, ?_, hd2, by omega⟩
    unfold readHead
    rw [byte_toNat (by omega), get_some (show opTypes[224]? = some .ll by decide +kernel), R.ok_bind]
    simp only
    rw [R.require_true (by omega), R.ok_bind, R.get_of_drop hd1, R.ok_bind, byte_toNat (by omega)]
    simp only [R.pure_eq, lit, msize, Token.distance]
    rw [show l.length - 16 + 16 = l.length by omega]
  | smallMatch n =>
    simp only [Token.wf] at hw
    simp only [Token.encode, List.cons_append, List.nil_append, List.length_cons] at hd hL ⊢
    obtain ⟨_, _, m1, m2⟩ := op_small n (by omega) (by omega)
    have hd1 := R.drop_succ_of_drop hd
    refine ⟨_, R.get_of_drop hd, c + 1, by simp [lit], ?_, hd1, by omega⟩
    unfold readHead
    rw [byte_toNat (by omega), get_some m2, R.ok_bind]
    simp only
    rw [m1]
    rfl
  | largeMatch n =>
    simp only [Token.wf] at hw
    simp only [Token.encode, List.cons_append, List.nil_append, List.length_cons] at hd hL ⊢
    have hd1 := R.drop_succ_of_drop hd
    have hd2 := R.drop_succ_of_drop hd1
    refine ⟨_, R.get_of_drop hd, c + 2, by simp [lit], ?_, hd2, by omega⟩
    unfold readHead
    rw [byte_toNat (by omega), get_some (show opTypes[240]? = some .ml by decide +kernel), R.ok_bind]
    simp only
    rw [R.require_true (by omega), R.ok_bind, R.get_of_drop hd1, R.ok_bind, byte_toNat (by omega)]
    simp only [R.pure_eq, lit, msize, Token.distance]
    rw [show n - 16 + 16 = n by omega]
    rfl
  | nop second =>
    simp only [Token.encode, List.cons_append, List.nil_append, List.length_cons] at hd hL ⊢
    have hd1 := R.drop_succ_of_drop hd
    refine ⟨_, R.get_of_drop hd, c + 1, by simp [lit], ?_, hd1, by omega⟩
    cases second
    · rw [show (if false = true then Spec.Lzvn.byte 0x16 else Spec.Lzvn.byte 0x0e).toNat = 0x0e from rfl]
      unfold readHead
      rw [get_some (show opTypes[0x0e]? = some .non by decide +kernel), R.ok_bind]
      rfl
    · rw [show (if true = true then Spec.Lzvn.byte 0x16 else Spec.Lzvn.byte 0x0e).toNat = 0x16 from rfl]
      unfold readHead
      rw [get_some (show opTypes[0x16]? = some .non by decide +kernel), R.ok_bind]
      rfl

theorem copyLiteral_ok {data post : List Byte} {c : Nat} (l : List Byte)
    (hd : data.drop c = l ++ post) (hc : c ≤ data.length) (out rest : List Byte)
    (h : l.length ≤ rest.length) :
    copyLiteral data l.length c (out ++ rest) out.length
      = .ok (c + l.length, (out ++ l) ++ rest.drop l.length, (out ++ l).length) := by
  unfold copyLiteral
  by_cases h0 : l.length > 0
  · have hL := R.length_of_drop hd (List.length_pos_iff.mp h0)
    rw [if_pos h0, R.subU_ok hc, R.ok_bind, R.require_true (by omega), R.ok_bind,
      R.subU_ok (by simp), R.ok_bind, R.require_true (by simp; omega), R.ok_bind,
      R.slice_of_drop hd hc, R.ok_bind, Lz.splice_literal _ _ _ h, R.ok_bind]
    simp
  · have : l = [] := List.length_eq_zero_iff.mp (by omega)
    subst this
    simp

theorem copyBack_ok (n d : Nat) (out rest : List Byte) (h : 0 < n → 1 ≤ d ∧ d ≤ out.length)
    (hn : n ≤ rest.length) :
    copyBack n d (out ++ rest) out.length
      = .ok (Spec.Lz.copy d n out ++ rest.drop n, (Spec.Lz.copy d n out).length) := by
  unfold copyBack
  by_cases h0 : n > 0
  · obtain ⟨h1, h2⟩ := h h0
    rw [if_pos h0, R.require_true h2, R.ok_bind, R.subU_ok (by simp), R.ok_bind,
      R.require_true (by simp; omega), R.ok_bind, Lz.copyMatch_ok d n out rest h1 h2 hn, R.ok_bind]
    simp
  · have : n = 0 := by omega
    subst this
    simp [Spec.Lz.copy]

/-- The operations of a token are its literal, if any, and its match, if any. -/
theorem run_ops (t : Token) (prev : Nat) (out : List Byte) :
    run out (t.ops prev) = Spec.Lz.copy (t.distance prev) (msize t) (out ++ lit t) := by
  cases t <;> simp [Token.ops, run, Op.run, msize, lit, Token.distance, Spec.Lz.copy]

theorem ok_ops (t : Token) (prev : Nat) (out : List Byte) (hok : Ok out (t.ops prev)) :
    0 < msize t → 1 ≤ t.distance prev ∧ t.distance prev ≤ (out ++ lit t).length := by
  cases t <;> simp [Token.ops, Ok, Op.ok, Op.run, msize, lit, Token.distance] at hok ⊢ <;>
    first | exact fun _ => hok | skip

theorem loop_ok {data tail : List Byte} (ts : List Token) (fuel prev c : Nat) (out rest : List Byte)
    (hf : data.length ≤ c + fuel) (hc : c ≤ data.length) (hw : ∀ t ∈ ts, t.wf)
    (hok : Ok out (ops prev ts)) (hd : data.drop c = Spec.Lzvn.encode ts ++ tail)
    (htail : tail = [] ∨ tail.head? = some 6#8)
    (hlen : (run out (ops prev ts)).length ≤ (out ++ rest).length) :
    loop data fuel prev c (out ++ rest) out.length = .ok
      (run out (ops prev ts) ++ rest.drop ((run out (ops prev ts)).length - out.length),
       (run out (ops prev ts)).length) := by
  induction ts generalizing fuel prev c out rest with
  | nil =>
    unfold loop
    simp only [Spec.Lzvn.encode, List.flatMap_nil, List.nil_append] at hd
    rcases htail with h | h
    · have : data.length ≤ c := by
        rw [h] at hd
        exact List.drop_eq_nil_iff.mp hd
      rw [if_neg (by omega)]
      simp [run, ops]
    · obtain ⟨tl, rfl⟩ : ∃ tl, tail = 6#8 :: tl := by
        cases tail with
        | nil => simp at h
        | cons a tl => simp at h; exact ⟨tl, by rw [h]⟩
      have hL := R.length_of_drop (s := [6#8]) hd (by simp)
      simp only [List.length_singleton] at hL
      rw [if_pos (by omega)]
      by_cases hfull : out.length ≥ (out ++ rest).length
      · rw [if_pos hfull]
        simp [run, ops]
      · rw [if_neg hfull]
        cases fuel with
        | zero => omega
        | succ fuel =>
          simp only
          rw [R.get_of_drop hd, R.ok_bind]
          have : readHead data (6#8).toNat prev (c + 1) = .ok .stop := by
            unfold readHead
            rw [get_some (show opTypes[(6#8).toNat]? = some .eos by decide +kernel), R.ok_bind]
            rfl
          rw [this, R.ok_bind]
          simp [run, ops]
  | cons t ts ih =>
    have hd' : data.drop c = t.encode ++ (Spec.Lzvn.encode ts ++ tail) := by
      rw [hd]; simp [Spec.Lzvn.encode]
    have hne : t.encode ≠ [] := by cases t <;> simp [Token.encode]
    have hpos : 0 < t.encode.length := List.length_pos_iff.mpr hne
    have hL := R.length_of_drop hd' hne
    have ht := hw t (by simp)
    simp only [ops, Lz.run_append, Lz.ok_append] at hok hlen ⊢
    unfold loop
    rw [if_pos (by omega)]
    by_cases hfull : out.length ≥ (out ++ rest).length
    · rw [if_pos hfull, ← Lz.run_append]
      rw [← Lz.run_append] at hlen
      have := run_full (out := out) (os := t.ops prev ++ ops (t.distance prev) ts) (by omega)
      rw [this]
      simp
    · rw [if_neg hfull]
      cases fuel with
      | zero => omega
      | succ fuel =>
        simp only
        obtain ⟨op, e1, c', hc', e2, e3, e4⟩ := head_ok (prev := prev) t ht hd'
        rw [e1, R.ok_bind, e2, R.ok_bind]
        simp only
        have hrun := run_ops t prev out
        have hl := Lz.le_run (run out (t.ops prev)) (ops (t.distance prev) ts)
        have hl2 : (run out (t.ops prev)).length = out.length + (lit t).length + msize t := by
          rw [hrun]; simp
        simp only [List.length_append] at hlen
        rw [copyLiteral_ok (lit t) e3 (by omega) out rest (by omega), R.ok_bind]
        simp only
        rw [copyBack_ok (msize t) _ (out ++ lit t) _ (ok_ops t prev out hok.1) (by simp; omega), R.ok_bind]
        simp only
        rw [← hrun, hc']
        have := ih fuel (t.distance prev) (c + t.encode.length) (run out (t.ops prev))
          (List.drop (msize t) (List.drop (lit t).length rest)) (by omega) (by omega)
          (fun t' h => hw t' (by simp [h])) hok.2 (R.drop_add_of_drop hd') (by simp; omega)
        rw [this, List.drop_drop, List.drop_drop]
        congr 4
        omega

/-! ## Arbitrary input -/

theorem readHead_sat (data : List Byte) (op prev c : Nat) (hop : op < 256) (hc : c ≤ data.length) :
    R.Sat (readHead data op prev c) fun h =>
      ∀ l m d c', h = .go l m d c' → c ≤ c' ∧ c' ≤ data.length := by
  unfold readHead
  refine R.Sat.bind (R.sat_get (by rw [show opTypes.length = 256 by decide +kernel]; exact hop)) fun ty _ => ?_
  cases ty with
  | dl | dm =>
    refine R.Sat.bind (R.sat_subU hc) fun x hx => ?_
    refine R.Sat.bind R.sat_require fun _ h1 => ?_
    refine R.Sat.bind (R.sat_get (by omega)) fun v _ => ?_
    refine R.Sat.bind (R.sat_get (by omega)) fun w _ => ?_
    refine R.sat_pure ?_
    intro l m d c' e
    injection e
    omega
  | ds | ll | ml =>
    refine R.Sat.bind R.sat_require fun _ h1 => ?_
    refine R.Sat.bind (R.sat_get (by omega)) fun v _ => ?_
    refine R.sat_pure ?_
    intro l m d c' e
    injection e
    omega
  | dp | ls | ms | non =>
    refine R.sat_pure ?_
    intro l m d c' e
    injection e
    omega
  | eos =>
    refine R.sat_pure ?_
    intro l m d c' e
    cases e
  | inv => exact R.sat_err

theorem copyMatch_sat (n : Nat) (buf : List Byte) (dst src : Nat) (hs : src ≤ dst)
    (hd : dst + n ≤ buf.length) :
    R.Sat (Lz.copyMatch n buf dst src) fun b =>
      b.length = buf.length ∧ b.drop (dst + n) = buf.drop (dst + n) := by
  induction n generalizing buf dst src with
  | zero => exact R.sat_ok ⟨rfl, rfl⟩
  | succ n ih =>
    unfold Lz.copyMatch
    refine R.Sat.bind (R.sat_get (by omega)) fun v _ => ?_
    rw [R.set_ok (by omega), R.ok_bind]
    refine R.Sat.mono (ih (buf.set dst v) (dst + 1) (src + 1) (by omega) (by simp; omega)) ?_
    rintro b ⟨h1, h2⟩
    refine ⟨by simpa using h1, ?_⟩
    rw [show dst + (n + 1) = dst + 1 + n by omega, h2, List.drop_set_of_lt (by omega)]

theorem drop_later {α} {a b : List α} {i j : Nat} (h : a.drop i = b.drop i) (hij : i ≤ j) :
    a.drop j = b.drop j := by
  have := congrArg (List.drop (j - i)) h
  rwa [List.drop_drop, List.drop_drop, show i + (j - i) = j by omega] at this

theorem loop_sat {data : List Byte} (fuel prev c : Nat) (buf : List Byte) (o : Nat)
    (hf : data.length ≤ c + fuel) (hc : c ≤ data.length) (ho : o ≤ buf.length) :
    R.Sat (loop data fuel prev c buf o) fun r =>
      r.1.length = buf.length ∧ o ≤ r.2 ∧ r.2 ≤ buf.length ∧ r.1.drop r.2 = buf.drop r.2 := by
  induction fuel generalizing prev c buf o with
  | zero =>
    unfold loop
    rw [if_neg (by omega)]
    exact R.sat_ok ⟨rfl, Nat.le_refl _, ho, rfl⟩
  | succ fuel ih =>
    unfold loop
    refine R.sat_ite (fun h1 => ?_) (fun _ => R.sat_ok ⟨rfl, Nat.le_refl _, ho, rfl⟩)
    refine R.sat_ite (fun _ => R.sat_ok ⟨rfl, Nat.le_refl _, ho, rfl⟩) (fun h2 => ?_)
    simp only
    refine R.Sat.bind (R.sat_get h1) fun op _ => ?_
    refine R.Sat.bind (readHead_sat data op.toNat prev (c + 1) op.isLt (by omega)) fun h hh => ?_
    cases h with
    | stop => exact R.sat_pure ⟨rfl, Nat.le_refl _, ho, rfl⟩
    | go l m d c1 =>
      obtain ⟨hc1, hc1'⟩ := hh l m d c1 rfl
      simp only
      have hlit : R.Sat (copyLiteral data l c1 buf o) fun r =>
          c1 ≤ r.1 ∧ r.1 ≤ data.length ∧ r.2.1.length = buf.length ∧ r.2.2 ≤ buf.length ∧ o ≤ r.2.2 ∧
            r.2.1.drop r.2.2 = buf.drop r.2.2 := by
        unfold copyLiteral
        refine R.sat_ite (fun _ => ?_)
          (fun _ => R.sat_pure ⟨Nat.le_refl _, hc1', rfl, ho, Nat.le_refl _, rfl⟩)
        refine R.Sat.bind (R.sat_subU hc1') fun x hx => ?_
        refine R.Sat.bind R.sat_require fun _ h3 => ?_
        refine R.Sat.bind (R.sat_subU ho) fun y hy => ?_
        refine R.Sat.bind R.sat_require fun _ h4 => ?_
        refine R.Sat.bind (R.sat_slice (by omega) (by omega)) fun bytes hb => ?_
        have hbl : bytes.length = l := by rw [hb]; simp; omega
        rw [R.splice_ok (by omega) (by omega) (by omega), R.ok_bind]
        refine R.sat_pure ⟨by simp, by simp only; omega, ?_, by simp only; omega, by simp only; omega, ?_⟩
        · simp; omega
        · exact List.drop_left' (by simp; omega)
      refine R.Sat.bind hlit fun r hr => ?_
      obtain ⟨c2, buf2, o2⟩ := r
      obtain ⟨a1, a2, a3, a4, a5, a6⟩ := hr
      simp only at a1 a2 a3 a4 a5 a6 ⊢
      have hback : R.Sat (copyBack m d buf2 o2) fun r => r.1.length = buf.length ∧ o2 ≤ r.2 ∧
          r.2 ≤ buf.length ∧ r.1.drop r.2 = buf2.drop r.2 := by
        unfold copyBack
        refine R.sat_ite (fun _ => ?_) (fun _ => R.sat_pure ⟨a3, Nat.le_refl _, a4, rfl⟩)
        refine R.Sat.bind R.sat_require fun _ h3 => ?_
        refine R.Sat.bind (R.sat_subU (by omega)) fun y hy => ?_
        refine R.Sat.bind R.sat_require fun _ h4 => ?_
        refine R.Sat.bind (copyMatch_sat m buf2 o2 (o2 - d) (by omega) (by omega)) fun b hb => ?_
        obtain ⟨b1, b2⟩ := hb
        exact R.sat_pure ⟨by simp only; omega, by simp only; omega, by simp only; omega, b2⟩
      refine R.Sat.bind hback fun r hr => ?_
      obtain ⟨buf3, o3⟩ := r
      obtain ⟨b1, b2, b3, b4⟩ := hr
      simp only at b1 b2 b3 b4 ⊢
      refine R.Sat.mono (ih d c2 buf3 o3 (by omega) a2 (by omega)) ?_
      rintro ⟨rb, ro⟩ ⟨r1, r2, r3, r4⟩
      simp only at r1 r2 r3 r4 ⊢
      refine ⟨by omega, by omega, by omega, ?_⟩
      rw [r4, drop_later b4 r2, drop_later a6 (by omega)]

end Keramics.Lzvn

namespace Keramics.Props
open Keramics.Spec.Lzvn

/-- C25, decoding: the encoding of any valid token list, ended by the end of the data or by an end of
stream opcode followed by anything, decompresses into any buffer that is large enough to the bytes the
tokens denote; the rest of the buffer is left as it was. -/
theorem C25_lzvn_decode (ts : List Token) (hv : Valid ts) (tail buf : List Byte)
    (htail : tail = [] ∨ tail.head? = some 6#8) (hbuf : (denote ts).length ≤ buf.length) :
    Lzvn.decompress (encode ts ++ tail) buf
      = .ok (denote ts ++ buf.drop (denote ts).length, (denote ts).length) := by
  have := Lzvn.loop_ok (data := encode ts ++ tail) ts (encode ts ++ tail).length 0 0 [] buf (by omega)
    (by omega) hv.1 hv.2 (List.drop_zero) htail (by simpa [denote] using hbuf)
  simpa [Lzvn.decompress, denote] using this

/-- C25, arbitrary input: decompression of any bytes into any buffer does not panic (no access is out
of bounds), keeps the buffer's length, reports at most that length, and leaves the bytes after the
reported size as they were. -/
theorem C25_lzvn_bounds (data buf : List Byte) :
    Lzvn.decompress data buf ≠ .panic ∧
    ∀ out size, Lzvn.decompress data buf = .ok (out, size) →
      out.length = buf.length ∧ size ≤ buf.length ∧ out.drop size = buf.drop size := by
  have h := Lzvn.loop_sat (data := data) data.length 0 0 buf 0 (by omega) (by omega) (by omega)
  refine ⟨h.ne_panic, fun out size e => ?_⟩
  obtain ⟨h1, _, h2, h3⟩ := h.of_ok e
  exact ⟨h1, h2, h3⟩

/-- Literals, an overlapping match, and a match that reuses the distance. -/
example : Valid [.small [1#8, 2#8] 1 3, .nop true, .medium [7#8] 3 5, .smallMatch 2] ∧
    Lzvn.decompress
      (encode [.small [1#8, 2#8] 1 3, .nop true, .medium [7#8] 3 5, .smallMatch 2] ++ [6#8, 0#8])
      (List.replicate 14 9#8)
      = .ok ([1#8, 2#8, 2#8, 2#8, 2#8, 7#8, 2#8, 2#8, 7#8, 2#8, 2#8, 7#8, 2#8, 9#8], 13) := by
  refine ⟨⟨?_, ?_⟩, by decide +kernel⟩
  · simp [Token.wf]
  · simp [ops, Token.ops, Token.distance, Spec.Lz.Ok, Spec.Lz.Op.ok, Spec.Lz.Op.run]

end Keramics.Props
