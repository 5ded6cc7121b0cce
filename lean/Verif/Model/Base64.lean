import Verif.Base.R

/-!
Model of keramics-encodings/src/base64.rs.

The encoded data is kept as the list of bytes from the current offset on (`rest`) together with the
offset itself. Simplification: a data offset beyond the data passed to `Base64Stream::new` is not
modelled (the list is then empty).
-/

namespace Keramics.Base64

/-- base64.rs:66-93: what a character is. -/
inductive Kind where
  | sixtet (v : Nat)
  | padding
  | space
  | invalid
  deriving DecidableEq, Repr

/-- base64.rs:66-93. -/
def kind (b : Byte) : Kind :=
  let c := b.toNat
  if 0x41 ≤ c ∧ c < 0x5b then .sixtet (c - 0x41)
  else if 0x61 ≤ c ∧ c < 0x7b then .sixtet (26 + (c - 0x61))
  else if 0x30 ≤ c ∧ c < 0x3a then .sixtet (52 + (c - 0x30))
  else if c = 0x2b then .sixtet 62
  else if c = 0x2f then .sixtet 63
  else if c = 0x3d then .padding
  else if c = 0x09 ∨ c = 0x0a ∨ c = 0x0b ∨ c = 0x0d ∨ c = 0x20 then .space
  else .invalid

/-- base64.rs:21-42: the stream state; `bits` is a u32. -/
structure State where
  rest : List Byte
  offset : Nat
  bits : Nat
  nb : Nat
  skip : Bool
  found : Bool
  deriving DecidableEq, Repr

/-- base64.rs:46-57 (with data offset 0). -/
def State.new (data : List Byte) (skip : Bool) : State := ⟨data, 0, 0, 0, skip, false⟩

/-- base64.rs:61-98: fill the bits buffer (`found_padding` is false on entry). -/
def fill (skip : Bool) (rest : List Byte) (offset bits nb : Nat) : R State :=
  if nb < 8 then
    match rest with
    | [] => .ok ⟨[], offset, bits, nb, skip, false⟩
    | b :: rest' =>
      match kind b with
      | .sixtet v => fill skip rest' (offset + 1) (((bits <<< 6) % 2 ^ 32) ||| v) (nb + 6)
      | .padding => .ok ⟨b :: rest', offset, bits, nb, skip, true⟩
      | .space => if skip then fill skip rest' (offset + 1) bits nb else .err
      | .invalid => .err
  else .ok ⟨rest, offset, bits, nb, skip, false⟩

/-- base64.rs:61-98: the loop, which stops at once when padding was found before. -/
def refill (s : State) : R State :=
  if s.found then .ok s else fill s.skip s.rest s.offset s.bits s.nb

/-- base64.rs:99-111. -/
def takeByte (s : State) : Option Byte × State :=
  if s.nb < 8 then (none, s)
  else
    let nb := s.nb - 8
    let bits := if nb = 0 then 0 else s.bits &&& (0xffffffff >>> (32 - nb))
    (some (BitVec.ofNat 8 (s.bits >>> nb)), { s with nb := nb, bits := bits })

/-- base64.rs:60-112. -/
def getValue (s : State) : R (Option Byte × State) := do
  let s ← refill s
  pure (takeByte s)

theorem fill_measure {skip rest offset bits nb s} (h : fill skip rest offset bits nb = .ok s) :
    s.rest.length * 6 + s.nb ≤ rest.length * 6 + nb := by
  induction rest generalizing offset bits nb with
  | nil =>
    unfold fill at h
    split at h
    · cases h; simp
    · cases h; simp
  | cons b rest ih =>
    unfold fill at h
    split at h
    · simp only at h
      split at h
      · have := ih h; simp only [List.length_cons]; omega
      · cases h; simp
      · split at h
        · have := ih h; simp only [List.length_cons]; omega
        · cases h
      · cases h
    · cases h; simp

theorem getValue_measure {s s' : State} {v} (h : getValue s = .ok (some v, s')) :
    s'.rest.length * 6 + s'.nb < s.rest.length * 6 + s.nb := by
  unfold getValue at h
  rw [R.bind_eq_ok] at h
  obtain ⟨t, ht, h⟩ := h
  have hm : t.rest.length * 6 + t.nb ≤ s.rest.length * 6 + s.nb := by
    unfold refill at ht
    split at ht
    · cases ht; exact Nat.le_refl _
    · exact fill_measure ht
  simp only [takeByte, R.pure_eq, R.ok.injEq] at h
  split at h
  · cases h
  · cases h; simp only; omega

/-- base64.rs:132-135: the loop of `decode`, writing each value to the output buffer. -/
def decodeLoop (s : State) (data : List Byte) (dataOffset : Nat) : R (Nat × List Byte × State) :=
  match h : getValue s with
  | .err => .err
  | .panic => .panic
  | .ok (none, s') => .ok (dataOffset, data, s')
  | .ok (some v, s') =>
    if dataOffset < data.length then decodeLoop s' (data.set dataOffset v) (dataOffset + 1)
    else .panic
termination_by s.rest.length * 6 + s.nb
decreasing_by exact getValue_measure h

/-- The values a caller gets from a stream by calling `get_value` until it returns `None`. -/
def values (s : State) : R (List Byte × State) :=
  match h : getValue s with
  | .err => .err
  | .panic => .panic
  | .ok (none, s') => .ok ([], s')
  | .ok (some v, s') =>
    match values s' with
    | .ok (vs, t) => .ok (v :: vs, t)
    | .err => .err
    | .panic => .panic
termination_by s.rest.length * 6 + s.nb
decreasing_by exact getValue_measure h

/-- base64.rs:138-159: the padding check. -/
def checkPadding (s : State) : R Unit :=
  if s.found then
    let paddingSize := if s.offset % 4 > 0 then 4 - s.offset % 4 else 0
    if paddingSize > s.rest.length then .err
    else if (s.rest.take paddingSize).all (· == 0x3d#8) then .ok () else .err
  else .ok ()

/-- base64.rs:128-161 `Base64Context::decode`: the decoded size and the output buffer. -/
def decode (encoded data : List Byte) : R (Nat × List Byte) := do
  let (size, out, s) ← decodeLoop (State.new encoded false) data 0
  checkPadding s
  pure (size, out)

end Keramics.Base64
