import Verif.Base.Tactics
import Verif.Model.CodePages

/-! Property theorems: single-byte code pages (C19). -/

namespace Keramics.Props
open Keramics Keramics.CodePage

deriving instance BEq, ReflBEq, LawfulBEq for R

/-- Decoding a byte and encoding the result gives the byte back. -/
def BytesRoundTrip (p : Page) : Prop := ∀ b < 256, ∀ c, p.decode b = .ok c → p.encode c = .ok [b]

/-- Encoding a code point gives one byte that decodes to the code point. -/
def PointsRoundTrip (p : Page) : Prop :=
  ∀ c bs, p.encode c = .ok bs → ∃ b < 256, bs = [b] ∧ p.decode b = .ok c

/-- No byte and no code point makes the coder index outside its tables. -/
def NeverPanics (p : Page) : Prop :=
  (∀ b < 256, p.decode b ≠ .panic) ∧ ∀ c, p.encode c ≠ .panic

def Consistent (p : Page) : Prop := BytesRoundTrip p ∧ PointsRoundTrip p ∧ NeverPanics p

/-- Decision procedure for all bytes. -/
def checkBytes (p : Page) : Bool :=
  (List.range 256).all fun b =>
    match p.decode b with
    | .ok c => p.encode c == .ok [b]
    | .err => true
    | .panic => false

/-- Decision procedure for one code point. -/
def checkPoint (p : Page) (c : Nat) : Bool :=
  match p.encode c with
  | .ok [b] => decide (b < 256) && p.decode b == .ok c
  | .ok _ => false
  | .err => true
  | .panic => false

/-- Decision procedure for the code points of the encoder arms, except the listed ones. -/
def checkPoints (p : Page) (except : List Nat) : Bool :=
  p.enc.all fun (lo, hi, _) => (List.range (hi - lo)).all fun i =>
    except.contains (lo + i) || checkPoint p (lo + i)

theorem checkBytes_sound {p : Page} (h : checkBytes p = true) :
    BytesRoundTrip p ∧ ∀ b < 256, p.decode b ≠ .panic := by
  unfold checkBytes at h
  rw [List.all_eq_true] at h
  constructor
  · intro b hb c hc
    have := h b (List.mem_range.mpr hb)
    simp only [hc] at this
    simpa using this
  · intro b hb hp
    have := h b (List.mem_range.mpr hb)
    simp [hp] at this

theorem encodeArms_mem {arms : List (Nat × Nat × EncAct)} {c : Nat} (h : encodeArms arms c ≠ .err) :
    ∃ a ∈ arms, a.1 ≤ c ∧ c < a.2.1 := by
  induction arms with
  | nil => simp [encodeArms] at h
  | cons a arms ih =>
    obtain ⟨lo, hi, act⟩ := a
    unfold encodeArms at h
    split at h
    · rename_i hc; exact ⟨_, List.mem_cons_self, hc⟩
    · obtain ⟨a, ha, h2⟩ := ih h
      exact ⟨a, List.mem_cons_of_mem _ ha, h2⟩

theorem checkPoints_sound {p : Page} {ex : List Nat} (h : checkPoints p ex = true) (c : Nat)
    (hc : c ∉ ex) :
    p.encode c ≠ .panic ∧ ∀ bs, p.encode c = .ok bs → ∃ b < 256, bs = [b] ∧ p.decode b = .ok c := by
  have key : p.encode c ≠ .err → checkPoint p c = true := by
    intro hne
    obtain ⟨⟨lo, hi, act⟩, ha, h1, h2⟩ := encodeArms_mem hne
    unfold checkPoints at h
    rw [List.all_eq_true] at h
    have := h _ ha
    simp only [List.all_eq_true, List.mem_range, Bool.or_eq_true] at this
    have := this (c - lo) (by simp only at h1 h2; omega)
    simp only at h1
    rw [show lo + (c - lo) = c by omega] at this
    rcases this with h' | h'
    · exact absurd (by simpa using h') hc
    · exact h'
  constructor
  · intro hp
    have := key (by rw [hp]; simp)
    simp [checkPoint, hp] at this
  · intro bs hb
    have := key (by rw [hb]; simp)
    unfold checkPoint at this
    rw [hb] at this
    match bs, this with
    | [b], h => simp only [Bool.and_eq_true, decide_eq_true_eq, beq_iff_eq] at h; exact ⟨b, h.1, rfl, h.2⟩
    | [], h => simp at h
    | _ :: _ :: _, h => simp at h

theorem consistent_of_check {p : Page} (h1 : checkBytes p = true) (h2 : checkPoints p [] = true) :
    Consistent p :=
  ⟨(checkBytes_sound h1).1, fun c => (checkPoints_sound h2 c (by simp)).2,
    (checkBytes_sound h1).2, fun c => (checkPoints_sound h2 c (by simp)).1⟩

/-- The code pages for which the property holds as stated. -/
def consistentPages : List Page := [
  iso8859_1, iso8859_10, iso8859_11, iso8859_13, iso8859_14, iso8859_15, iso8859_16, iso8859_3,
  iso8859_5, iso8859_6, iso8859_7, iso8859_8, iso8859_9, koi8R, koi8U, macCeltic,
  macCentralEurRoman, macCroatian, macCyrillic, macDingbats, macGaelic, windows1250, windows1251,
  windows1252, windows1253, windows1254, windows1255, windows1256, windows1257, windows1258,
  windows874]

/-- C19. For these code pages, every byte that decodes encodes back to itself, every code point that
encodes decodes back to itself, and no input panics. -/
theorem C19_code_pages : ∀ p ∈ consistentPages, Consistent p := by
  have h : consistentPages.all (fun p => checkBytes p && checkPoints p []) = true := by
    decide +kernel
  intro p hp
  have := List.all_eq_true.mp h p hp
  rw [Bool.and_eq_true] at this
  exact consistent_of_check this.1 this.2

theorem decodeAll_encodeAll {p : Page} (h : BytesRoundTrip p) (bs : List Nat)
    (hb : ∀ b ∈ bs, b < 256) (cs : List Nat) (hd : p.decodeAll bs = .ok cs) :
    p.encodeAll cs = .ok bs := by
  induction bs generalizing cs with
  | nil => simp only [Page.decodeAll, R.ok.injEq] at hd; subst hd; rfl
  | cons b bs ih =>
    simp only [Page.decodeAll, R.bind_eq_ok, R.pure_eq, R.ok.injEq] at hd
    obtain ⟨c, hc, cs', hcs, rfl⟩ := hd
    simp only [Page.encodeAll]
    rw [h b (hb b List.mem_cons_self) c hc, R.ok_bind,
      ih (fun x hx => hb x (List.mem_cons_of_mem _ hx)) cs' hcs]
    rfl

theorem encodeAll_decodeAll {p : Page} (h : PointsRoundTrip p) (cs bs : List Nat)
    (he : p.encodeAll cs = .ok bs) : p.decodeAll bs = .ok cs := by
  induction cs generalizing bs with
  | nil => simp only [Page.encodeAll, R.ok.injEq] at he; subst he; rfl
  | cons c cs ih =>
    simp only [Page.encodeAll, R.bind_eq_ok, R.pure_eq, R.ok.injEq] at he
    obtain ⟨b1, hb1, bs', hbs, rfl⟩ := he
    obtain ⟨b, _, rfl, hd⟩ := h c b1 hb1
    simp only [List.cons_append, List.nil_append, Page.decodeAll]
    rw [hd, R.ok_bind, ih bs' hbs]
    rfl

/-- C19. The same for strings of any length. -/
theorem C19_strings (p : Page) (hp : p ∈ consistentPages) :
    (∀ bs : List Nat, (∀ b ∈ bs, b < 256) → ∀ cs, p.decodeAll bs = .ok cs → p.encodeAll cs = .ok bs) ∧
    (∀ cs bs, p.encodeAll cs = .ok bs → p.decodeAll bs = .ok cs) :=
  ⟨fun bs hb cs => decodeAll_encodeAll (C19_code_pages p hp).1 bs hb cs,
    fun cs bs => encodeAll_decodeAll (C19_code_pages p hp).2.1 cs bs⟩

/-- C19 is false of the code as stated for ASCII (0x80 decodes but does not encode), ISO-8859-2 and
ISO-8859-4 (three and one code points encode to the substitute character 0x1a) and for MacArabic and
MacFarsi (two bytes decode to the same code point). -/
theorem C19_violated :
    (ascii.decode 0x80 = .ok 0x80 ∧ ascii.encode 0x80 = .err) ∧
    (iso8859_2.encode 0x2da = .ok [0x1a] ∧ iso8859_2.decode 0x1a = .ok 0x1a) ∧
    (iso8859_4.encode 0x17f = .ok [0x1a] ∧ iso8859_4.decode 0x1a = .ok 0x1a) ∧
    (macArabic.decode 0x20 = .ok 0x20 ∧ macArabic.encode 0x20 = .ok [0xa0]) ∧
    (macFarsi.decode 0x20 = .ok 0x20 ∧ macFarsi.encode 0x20 = .ok [0xa0]) := by
  decide +kernel

/-- C19, the pages with exceptions. ASCII: consistent on 7-bit bytes and all code points.
ISO-8859-2, ISO-8859-4: all bytes, and all code points except the listed ones. MacArabic, MacFarsi:
all code points. Missing: the exceptions of `C19_violated`. -/
theorem C19_exceptional_pages_partial :
    ((∀ b < 0x80, ascii.decode b = .ok b ∧ ascii.encode b = .ok [b]) ∧ PointsRoundTrip ascii) ∧
    (BytesRoundTrip iso8859_2 ∧ ∀ c ∉ [0x2da, 0x2dc, 0x2de], ∀ bs, iso8859_2.encode c = .ok bs →
      ∃ b < 256, bs = [b] ∧ iso8859_2.decode b = .ok c) ∧
    (BytesRoundTrip iso8859_4 ∧ ∀ c ∉ [0x17f], ∀ bs, iso8859_4.encode c = .ok bs →
      ∃ b < 256, bs = [b] ∧ iso8859_4.decode b = .ok c) ∧
    PointsRoundTrip macArabic ∧ PointsRoundTrip macFarsi ∧
    (∀ p ∈ [ascii, iso8859_2, iso8859_4, macArabic, macFarsi], ∀ c, p.encode c ≠ .panic) := by
  have ha : checkPoints ascii [] = true := by decide +kernel
  have h2 : checkBytes iso8859_2 = true := by decide +kernel
  have h2' : checkPoints iso8859_2 [0x2da, 0x2dc, 0x2de] = true := by decide +kernel
  have h4 : checkBytes iso8859_4 = true := by decide +kernel
  have h4' : checkPoints iso8859_4 [0x17f] = true := by decide +kernel
  have hm : checkPoints macArabic [] = true := by decide +kernel
  have hf : checkPoints macFarsi [] = true := by decide +kernel
  refine ⟨⟨by decide +kernel, fun c => (checkPoints_sound ha c (by simp)).2⟩,
    ⟨(checkBytes_sound h2).1, fun c hc => (checkPoints_sound h2' c hc).2⟩,
    ⟨(checkBytes_sound h4).1, fun c hc => (checkPoints_sound h4' c hc).2⟩,
    fun c => (checkPoints_sound hm c (by simp)).2, fun c => (checkPoints_sound hf c (by simp)).2, ?_⟩
  have n2 : ∀ c, iso8859_2.encode c ≠ .panic := by
    intro c
    by_cases hc : c ∈ [0x2da, 0x2dc, 0x2de]
    · revert c; decide +kernel
    · exact (checkPoints_sound h2' c hc).1
  have n4 : ∀ c, iso8859_4.encode c ≠ .panic := by
    intro c
    by_cases hc : c ∈ [0x17f]
    · revert c; decide +kernel
    · exact (checkPoints_sound h4' c hc).1
  intro p hp c
  simp only [List.mem_cons, List.not_mem_nil, or_false] at hp
  rcases hp with rfl | rfl | rfl | rfl | rfl
  · exact (checkPoints_sound ha c (by simp)).1
  · exact n2 c
  · exact n4 c
  · exact (checkPoints_sound hm c (by simp)).1
  · exact (checkPoints_sound hf c (by simp)).1

example : windows1252.decode 0x80 = .ok 0x20ac ∧ windows1252.encode 0x20ac = .ok [0x80] := by
  decide +kernel
example : consistentPages.length = 31 := by decide

end Keramics.Props
