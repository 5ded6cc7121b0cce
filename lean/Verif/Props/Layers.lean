import Verif.Model.Layers
import Verif.Spec.Layers
import Verif.Lemmas.Vhd
import Verif.Props.Types
import Verif.Props.Vhd
import Verif.Props.VhdxOpen
import Verif.Props.Qcow
import Verif.Props.InfoTool

/-!
# Property theorems: images with layers (C88)
-/

namespace Keramics.Props
open Keramics.Spec Keramics.Spec.Layers Keramics.Layers

/-- Every file fits to the one before. -/
def Linked (k : Kind) (l : List (List Byte)) : Prop := ∀ i g f, l[i]? = some g → l[i + 1]? = some f → k.setParent f g = .ok ()

/-- Every layer has the one before as its parent. -/
def Stacked (layers : List Layer) : Prop := ∀ (i : Nat) (l : Layer), layers[i]? = some l → l.parent = if i = 0 then none else some (i - 1)

theorem stacked_append {layers : List Layer} (h : Stacked layers) (f : List Byte) :
    Stacked (layers ++ [⟨f, if layers.length = 0 then none else some (layers.length - 1)⟩]) := by
  intro i l hl
  rcases Nat.lt_trichotomy i layers.length with hi | rfl | hi
  · rw [List.getElem?_append_left hi] at hl
    exact h i l hl
  · simp only [List.getElem?_append_right (Nat.le_refl _), Nat.sub_self, List.getElem?_cons_zero, Option.some.injEq] at hl
    rw [← hl]
  · rw [List.getElem?_eq_none (by simp; omega)] at hl
    cases hl

theorem linkParent_ok {k : Kind} {f : List Byte} {layers : List Layer} :
    (∀ p, linkParent k f layers = .ok p → p = if layers.length = 0 then none else some (layers.length - 1)) ∧
    ((∃ p, linkParent k f layers = .ok p) ↔ ∀ g, layers.getLast? = some g → k.setParent f g.file = .ok ()) := by
  unfold linkParent
  cases hl : layers.getLast? with
  | none =>
    have : layers = [] := List.getLast?_eq_none_iff.1 hl
    subst this
    refine ⟨fun p h => ?_, ⟨fun _ g hg => (by cases hg), fun _ => ⟨none, if_neg (by simp)⟩⟩⟩
    rw [if_neg (by simp)] at h
    cases h
    rfl
  | some g =>
    have hne : layers ≠ [] := fun h => by rw [h] at hl; cases hl
    have hpos : 0 < layers.length := List.length_pos_iff.2 hne
    have hget : layers[layers.length - 1]'(by omega) = g := by
      rw [List.getLast?_eq_getElem?, List.getElem?_eq_getElem (by omega)] at hl
      exact Option.some.inj hl
    rw [if_pos hpos, R.get_ok (show layers.length - 1 < layers.length by omega), R.ok_bind, hget, if_neg (by omega)]
    refine ⟨fun p h => ?_, ?_⟩
    · obtain ⟨_, -, h⟩ := R.bind_eq_ok.1 h
      cases h
      rfl
    · constructor
      · rintro ⟨p, h⟩ g' hg
        cases hg
        obtain ⟨_, h1, -⟩ := R.bind_eq_ok.1 h
        exact h1
      · intro h
        rw [h g rfl]
        exact ⟨_, rfl⟩

theorem linked_append {k : Kind} {l : List (List Byte)} {f : List Byte} :
    Linked k (l ++ [f]) ↔ Linked k l ∧ ∀ g, l.getLast? = some g → k.setParent f g = .ok () := by
  constructor
  · intro h
    refine ⟨fun i g f' h1 h2 => ?_, fun g hg => ?_⟩
    · have hi : i + 1 < l.length := by
        by_contra hc
        rw [List.getElem?_eq_none (by omega)] at h2
        cases h2
      exact h i g f' (by rw [List.getElem?_append_left (by omega)]; exact h1) (by rw [List.getElem?_append_left hi]; exact h2)
    · have hpos : 0 < l.length := List.length_pos_iff.2 fun hc => by rw [hc] at hg; cases hg
      rw [List.getLast?_eq_getElem?] at hg
      refine h (l.length - 1) g f (by rw [List.getElem?_append_left (by omega)]; exact hg) ?_
      rw [show l.length - 1 + 1 = l.length by omega]
      simp
  · rintro ⟨h1, h2⟩ i g f' hg hf
    rcases Nat.lt_trichotomy (i + 1) l.length with hi | hi | hi
    · rw [List.getElem?_append_left (by omega)] at hg
      rw [List.getElem?_append_left hi] at hf
      exact h1 i g f' hg hf
    · rw [List.getElem?_append_left (by omega)] at hg
      rw [hi] at hf
      simp only [List.getElem?_append_right (Nat.le_refl _), Nat.sub_self, List.getElem?_cons_zero, Option.some.injEq] at hf
      subst hf
      exact h2 g (by rw [List.getLast?_eq_getElem?, show l.length - 1 = i by omega]; exact hg)
    · rw [List.getElem?_eq_none (by simp; omega)] at hf
      cases hf

/-- The second loop. -/
theorem link_ok {k : Kind} (files : List (List Byte)) : ∀ (layers : List Layer), Stacked layers → Linked k (layers.map Layer.file) →
    ((∃ out, link k files layers = .ok out) ↔ Linked k (layers.map Layer.file ++ files)) ∧
    ∀ out, link k files layers = .ok out → out.map Layer.file = layers.map Layer.file ++ files ∧ Stacked out := by
  induction files with
  | nil =>
    intro layers hs hl
    refine ⟨⟨fun _ => by simpa using hl, fun _ => ⟨_, rfl⟩⟩, ?_⟩
    intro out h
    cases h
    exact ⟨by simp, hs⟩
  | cons f files ih =>
    intro layers hs hl
    obtain ⟨p1, p2⟩ := linkParent_ok (k := k) (f := f) (layers := layers)
    have hlast : (∀ g, layers.getLast? = some g → k.setParent f g.file = .ok ()) ↔
        ∀ g, (layers.map Layer.file).getLast? = some g → k.setParent f g = .ok () := by
      rw [List.getLast?_map]
      constructor
      · intro h g hg
        obtain ⟨x, hx, rfl⟩ := Option.map_eq_some_iff.1 hg
        exact h x hx
      · intro h g hg
        exact h g.file (by rw [hg]; rfl)
    have step : ∀ p, linkParent k f layers = .ok p → Stacked (layers ++ [(⟨f, p⟩ : Layer)]) ∧ Linked k ((layers ++ [(⟨f, p⟩ : Layer)]).map Layer.file) := by
      intro p hp
      refine ⟨?_, ?_⟩
      · rw [p1 p hp]
        exact stacked_append hs f
      · rw [List.map_append]
        exact linked_append.2 ⟨hl, hlast.1 (p2.1 ⟨p, hp⟩)⟩
    have happ : ∀ p, (layers ++ [(⟨f, p⟩ : Layer)]).map Layer.file ++ files = layers.map Layer.file ++ f :: files := by
      intro p
      simp
    refine ⟨⟨?_, ?_⟩, ?_⟩
    · rintro ⟨out, h⟩
      rw [link] at h
      obtain ⟨p, hp, h⟩ := R.bind_eq_ok.1 h
      obtain ⟨s1, s2⟩ := step p hp
      rw [← happ p]
      exact (ih _ s1 s2).1.1 ⟨out, h⟩
    · intro h
      have hf : Linked k (layers.map Layer.file ++ [f]) := by
        intro i g f' hg hf'
        have hi : i + 1 < (layers.map Layer.file ++ [f]).length := by
          by_contra hc
          rw [List.getElem?_eq_none (by omega)] at hf'
          cases hf'
        have e : layers.map Layer.file ++ f :: files = (layers.map Layer.file ++ [f]) ++ files := by simp
        rw [e] at h
        exact h i g f' (by rw [List.getElem?_append_left (by omega)]; exact hg) (by rw [List.getElem?_append_left hi]; exact hf')
      obtain ⟨p, hp⟩ := p2.2 (hlast.2 (linked_append.1 hf).2)
      obtain ⟨s1, s2⟩ := step p hp
      rw [link, hp, R.ok_bind]
      exact (ih _ s1 s2).1.2 (by rw [happ p]; exact h)
    · intro out h
      rw [link] at h
      obtain ⟨p, hp, h⟩ := R.bind_eq_ok.1 h
      obtain ⟨s1, s2⟩ := step p hp
      have := (ih _ s1 s2).2 out h
      rw [happ p] at this
      exact this

section General
variable {k : Kind} {resolve : List Nat → R (Option (List Byte))} {IsFile : List Nat → List Byte → Prop} {Parent : List Byte → Option (List Nat) → Prop}
  {Fits : List Byte → List Byte → Prop}

/-- The first loop gives a chain. -/
theorem chain_ok (hread : ∀ name f, IsFile name f ↔ readFile k resolve name = .ok f)
    (hnext : ∀ name f, IsFile name f → ∀ p, Parent f p ↔ k.next f = .ok p) (fuel : Nat) :
    ∀ name f acc, IsFile name f → 
      (∀ rest, Chain IsFile Parent (fun _ _ => True) name (f :: rest) → rest.length < fuel → chain k resolve fuel f acc = .ok (acc ++ f :: rest)) ∧
      (∀ files, chain k resolve fuel f acc = .ok files → ∃ rest, files = acc ++ f :: rest ∧ Chain IsFile Parent (fun _ _ => True) name (f :: rest)) := by
  induction fuel with
  | zero =>
    intro name f acc hf
    exact ⟨fun rest _ h => by omega, fun files h => by cases h⟩
  | succ fuel ih =>
    intro name f acc hf
    rw [chain]
    refine ⟨fun rest hc hlen => ?_, fun files h => ?_⟩
    · cases hc with
      | base _ h2 => rw [(hnext name f hf _).1 h2, R.ok_bind]; rfl
      | @layer _ _ parent g rest _ h2 h3 _ =>
        have hg : IsFile parent g := by cases h3 <;> assumption
        rw [(hnext name f hf _).1 h2, R.ok_bind]
        simp only
        rw [(hread parent g).1 hg, R.ok_bind, (ih parent g (acc ++ [f]) hg).1 rest h3 (by simp at hlen; omega)]
        simp
    · obtain ⟨p, hp, h⟩ := R.bind_eq_ok.1 h
      cases p with
      | none =>
        cases h
        exact ⟨[], rfl, .base hf ((hnext name f hf _).2 hp)⟩
      | some parent =>
        simp only at h
        obtain ⟨g, hg, h⟩ := R.bind_eq_ok.1 h
        have hg := (hread parent g).2 hg
        obtain ⟨rest, h1, h2⟩ := (ih parent g _ hg).2 files h
        exact ⟨g :: rest, by rw [h1]; simp, .layer hf ((hnext name f hf _).2 hp) h2 trivial⟩

theorem chain_weaken {name : List Nat} {files : List (List Byte)} (h : Chain IsFile Parent Fits name files) : Chain IsFile Parent (fun _ _ => True) name files := by
  induction h with
  | base h1 h2 => exact .base h1 h2
  | layer h1 h2 _ _ ih => exact .layer h1 h2 ih trivial

theorem linked_cons {g f : List Byte} {l : List (List Byte)} : Linked k ((f :: g :: l).reverse) ↔ Linked k ((g :: l).reverse) ∧ k.setParent f g = .ok () := by
  rw [List.reverse_cons, linked_append]
  simp

theorem chain_fits (hnext : ∀ name f, IsFile name f → ∀ p, Parent f p ↔ k.next f = .ok p)
    (hfit : ∀ name f g parent, IsFile name f → Parent f (some parent) → IsFile parent g → (Fits f g ↔ k.setParent f g = .ok ()))
    {name : List Nat} {files : List (List Byte)} (h : Chain IsFile Parent (fun _ _ => True) name files) :
    Chain IsFile Parent Fits name files ↔ Linked k files.reverse := by
  induction h with
  | base h1 h2 =>
    refine ⟨fun _ i g f hg hf => ?_, fun _ => .base h1 h2⟩
    rw [List.getElem?_eq_none (by simp)] at hf
    cases hf
  | @layer name f parent g rest h1 h2 h3 _ ih =>
    have hg : IsFile parent g := by cases h3 <;> assumption
    rw [linked_cons, ← ih, ← hfit name f g parent h1 h2 hg]
    constructor
    · intro h
      cases h with
      | layer a b c d =>
        have e := ((hnext name f h1 _).1 b).symm.trans ((hnext name f h1 _).1 h2)
        cases e
        exact ⟨c, d⟩
    · rintro ⟨h, h'⟩
      exact .layer h1 h2 h h'

/-- Opening gives the chain, the base first. -/
theorem openImage_iff (hread : ∀ name f, IsFile name f ↔ readFile k resolve name = .ok f)
    (hnext : ∀ name f, IsFile name f → ∀ p, Parent f p ↔ k.next f = .ok p)
    (hfit : ∀ name f g parent, IsFile name f → Parent f (some parent) → IsFile parent g → (Fits f g ↔ k.setParent f g = .ok ())) (fuel : Nat) (name : List Nat) :
    (∀ files, Chain IsFile Parent Fits name files → files.length ≤ fuel → ∃ layers, openImage k resolve fuel name = .ok layers ∧
      layers.map Layer.file = files.reverse ∧ Stacked layers) ∧
    (∀ layers, openImage k resolve fuel name = .ok layers → Chain IsFile Parent Fits name (layers.map Layer.file).reverse ∧ Stacked layers) := by
  have hst : Stacked ([] : List Layer) := fun i l h => by simp at h
  have hlk : Linked k (([] : List Layer).map Layer.file) := fun i g f h => by simp at h
  refine ⟨fun files hc hlen => ?_, fun layers h => ?_⟩
  · have hw := chain_weaken hc
    have hl := (chain_fits hnext hfit hw).1 hc
    obtain ⟨f, rest, rfl, hf⟩ : ∃ f rest, files = f :: rest ∧ IsFile name f := by
      cases hw with
      | base h1 h2 => exact ⟨_, _, rfl, h1⟩
      | layer h1 h2 h3 h4 => exact ⟨_, _, rfl, h1⟩
    have h1 := (chain_ok hread hnext fuel name f [] hf).1 rest hw (by simp at hlen; omega)
    have h2 := link_ok (k := k) (f :: rest).reverse [] hst hlk
    obtain ⟨out, ho⟩ := h2.1.2 (by simpa using hl)
    refine ⟨out, ?_, by simpa using (h2.2 out ho).1, (h2.2 out ho).2⟩
    unfold openImage
    rw [(hread name f).1 hf, R.ok_bind, h1, R.ok_bind]
    exact ho
  · unfold openImage at h
    obtain ⟨f, hf, h⟩ := R.bind_eq_ok.1 h
    have hf := (hread name f).2 hf
    obtain ⟨files, h1, h⟩ := R.bind_eq_ok.1 h
    obtain ⟨rest, he, hc⟩ := (chain_ok hread hnext fuel name f [] hf).2 files h1
    rw [List.nil_append] at he
    subst he
    have h2 := link_ok (k := k) (f :: rest).reverse [] hst hlk
    have hl : Linked k (f :: rest).reverse := by simpa using h2.1.1 ⟨_, h⟩
    obtain ⟨h3, h4⟩ := h2.2 layers h
    refine ⟨?_, h4⟩
    rw [h3]
    simpa using (chain_fits hnext hfit hc).2 hl

end General

/-- The layers of an image by their index: the last file of the chain is layer 0, and there are no others. -/
theorem C88_layer (layers : List Layer) (files : List (List Byte)) (h : layers.map Layer.file = files.reverse) (i : Nat) :
    (∀ hi : i < files.length, ∃ l, layerByIndex layers i = .ok l ∧ l.file = files[files.length - 1 - i]) ∧
    (files.length ≤ i → layerByIndex layers i = .err) := by
  have hl : layers.length = files.length := by simpa using congrArg List.length h
  unfold layerByIndex
  refine ⟨fun hi => ?_, fun hi => ?_⟩
  · rw [List.getElem?_eq_getElem (by omega)]
    refine ⟨_, rfl, ?_⟩
    have := List.getElem_of_eq h (i := i) (by simpa using hl ▸ hi)
    rw [List.getElem_map, List.getElem_reverse] at this
    exact this
  · rw [List.getElem?_eq_none (by omega)]

example : ∃ layers : List Layer, layers.map Layer.file = [[1#8], [2#8]].reverse ∧ layers.length = 2 := ⟨[⟨[2#8], none⟩, ⟨[1#8], some 0⟩], rfl, rfl⟩

/-! ## VHD -/

private theorem shl_or {a b : Nat} (h : b < 2 ^ 32) : a <<< 32 ||| b = a * 2 ^ 32 + b := by
  rw [Nat.shiftLeft_eq, Nat.mul_comm, ← Nat.two_pow_add_eq_or_of_lt h, Nat.mul_comm]

private theorem uuid_inj {a b : List Byte} (ha : a.length = 16) (hb : b.length = 16) :
    ∃ u v, Uuid.fromBeBytes a = .ok u ∧ Uuid.fromBeBytes b = .ok v ∧ (u = v ↔ a = b) := by
  obtain ⟨u, hu, hfu, htu⟩ := C13_be_bytes a ha
  obtain ⟨v, hv, hfv, htv⟩ := C13_be_bytes b hb
  refine ⟨u, v, hu, hv, fun h => ?_, fun h => ?_⟩
  · subst h
    have hh := hu.trans hv.symm
    match a, ha, b, hb with
    | [a0, a1, a2, a3, a4, a5, a6, a7, a8, a9, a10, a11, a12, a13, a14, a15], _, [b0, b1, b2, b3, b4, b5, b6, b7, b8, b9, b10, b11, b12, b13, b14, b15], _ =>
      have e : ∀ x y : Byte, x = y ↔ x.toNat = y.toNat := fun x y => BitVec.toNat_inj.symm
      simp only [Uuid.fromBeBytes, u16be, u32be, R.slice, List.length_cons, List.length_nil] at hh
      have l : ∀ x : Byte, x.toNat < 256 := fun x => x.isLt
      simp only [Nat.reduceAdd, Nat.reduceLeDiff, and_self, if_true, R.ok_bind, R.pure_eq, R.ok.injEq, Uuid.Uuid.mk.injEq] at hh
      simp only [List.drop, List.take, beNat, List.reverse_cons, List.reverse_nil, List.nil_append, List.cons_append, leNat, Nat.reduceSub] at hh
      have b0 := l a0; have b1 := l a1; have b2 := l a2; have b3 := l a3; have b4 := l a4; have b5 := l a5; have b6 := l a6; have b7 := l a7
      have b8 := l a8; have b9 := l a9; have b10 := l a10; have b11 := l a11; have b12 := l a12; have b13 := l a13; have b14 := l a14; have b15 := l a15
      rw [shl_or (by omega), shl_or (by omega)] at hh
      simp only [List.cons.injEq, e, and_true]
      omega
  · subst h
    exact (R.ok.inj (hu.symm.trans hv))

private theorem vhdParent_ok {file : List Byte} (hl : Spec.Vhd.nextOffset file + 1024 ≤ file.length) : ∃ id, Uuid.fromBeBytes (vhdParentId file) = .ok id ∧
    (Uuid.isNil id = true ↔ vhdParentId file = List.replicate 16 0#8) ∧
    vhdParent file (Spec.Vhd.nextOffset file) = .ok (if Uuid.isNil id then none else some (id, vhdParentName file)) := by
  have h16 : (vhdParentId file).length = 16 := bytesAt_length (by omega)
  obtain ⟨id, h1, h2, -⟩ := C13_nil_max (vhdParentId file) h16
  refine ⟨id, h1, h2, ?_⟩
  have hd : (Spec.bytesAt file (Spec.Vhd.nextOffset file) 1024).length = 1024 := bytesAt_length (by omega)
  unfold vhdParent
  have hr : readExactAt file (Spec.Vhd.nextOffset file) 1024 = .ok (Spec.bytesAt file (Spec.Vhd.nextOffset file) 1024) := readExactAt_ok (by omega)
  rw [hr, R.ok_bind, slice_bytesAt' (n := 16) rfl (by rw [bytesAt_length (by omega)]; omega), R.ok_bind, bytesAt_bytesAt (by omega)]
  rw [show Spec.bytesAt file (Spec.Vhd.nextOffset file + 40) 16 = vhdParentId file from rfl, h1, R.ok_bind,
    slice_bytesAt' (n := 512) rfl (by rw [bytesAt_length (by omega)]; omega), R.ok_bind, bytesAt_bytesAt (by omega),
    C15_decode_be _ (by rw [bytesAt_length (by omega)]), R.ok_bind]
  rfl

private theorem vhdLinks_ok {file : List Byte} (hs : Spec.Vhd.Supported file) : ∃ id parent, vhdLinks file = .ok ⟨id, parent⟩ ∧
    Uuid.fromBeBytes (vhdId file) = .ok id ∧ (¬ VhdHasParent file → parent = none) ∧
    (VhdHasParent file → ∃ pid, Uuid.fromBeBytes (vhdParentId file) = .ok pid ∧ parent = some (pid, vhdParentName file)) := by
  have hlen := hs.1.length
  have h16 : (vhdId file).length = 16 := bytesAt_length (by unfold Spec.Vhd.footer; omega)
  obtain ⟨id, hid, -⟩ := C13_be_bytes (vhdId file) h16
  obtain ⟨f, hf, rfl, -⟩ := (Vhd.readFooter_good file).exists_ok hs.1
  have e : Uuid.fromBeBytes (Spec.bytesAt (Spec.bytesAt file (file.length - 512) 512) 68 16) = .ok id := by
    rw [bytesAt_bytesAt (by omega)]; exact hid
  unfold vhdLinks
  have hr : readExactAt file (file.length - 512) 512 = .ok (Spec.bytesAt file (file.length - 512) 512) := readExactAt_ok (by omega)
  rw [hf, R.ok_bind, hr, R.ok_bind, slice_bytesAt' (n := 16) rfl (by rw [bytesAt_length (by omega)]; omega), R.ok_bind, e, R.ok_bind]
  simp only
  by_cases h2 : Spec.Vhd.diskType file = 2
  · rw [if_pos (by unfold Vhd.typeOf; rw [if_pos h2])]
    exact ⟨id, none, rfl, hid, fun _ => rfl, fun h => absurd h2 h.1⟩
  · rw [if_neg (by unfold Vhd.typeOf; rw [if_neg h2]; split <;> simp)]
    obtain ⟨pid, h3, h4, h5⟩ := vhdParent_ok (hs.2 h2).length
    rw [h5, R.ok_bind]
    refine ⟨id, _, rfl, hid, fun h => ?_, fun h => ⟨pid, h3, ?_⟩⟩
    · have : vhdParentId file = List.replicate 16 0#8 := by
        by_contra hc
        exact h ⟨h2, hc⟩
      rw [if_pos (h4.2 this)]
    · rw [if_neg fun hc => h.2 (h4.1 hc)]

private theorem text_eq {t : List Nat} (h1 : 0x5c ∉ t) (h2 : ∀ c ∈ t, c < 0xd800 ∨ (0xe000 ≤ c ∧ c < 0x10000)) : Path.ucs2Text t = t := by
  induction t with
  | nil => rfl
  | cons c t ih =>
    have hc : Display.isChar c = true := by
      have := h2 c (by simp)
      unfold Display.isChar
      simp
      omega
    rw [Vhdx.ucs2Text_cons, if_pos hc, if_neg (fun h => h1 (by simp [h])), ih (fun h => h1 (by simp [h])) (fun d hd => h2 d (by simp [hd]))]
    rfl

private theorem fileName_unique {s t t' : List Nat} (h : VhdxFile.FileName s t) (h' : VhdxFile.FileName s t') : t = t' := by
  have a := (C70_parent_file_name s).2.2 t h
  have b := (C70_parent_file_name s).2.2 t' h'
  simpa using a.symm.trans b

/-- The code units of the path of the parent are characters. -/
def PlainName (file : List Byte) : Prop := ∀ c ∈ vhdParentName file, c < 0xd800 ∨ (0xe000 ≤ c ∧ c < 0x10000)

private theorem vhd_next {file : List Byte} (hs : Spec.Vhd.Supported file) (hp : PlainName file) (p : Option (List Nat)) :
    VhdParent file p ↔ vhd.next file = .ok p := by
  obtain ⟨id, parent, h1, h2, h3, h4⟩ := vhdLinks_ok hs
  show _ ↔ (vhdLinks file >>= fun l => nextName (l.parent.map fun p => (p.1, some p.2))) = .ok p
  rw [h1, R.ok_bind]
  simp only
  by_cases hh : VhdHasParent file
  · obtain ⟨pid, h5, rfl⟩ := h4 hh
    obtain ⟨t, ht⟩ := (C70_parent_file_name (vhdParentName file)).2.1
    have hpl : Path.ucs2Text t = t := by
      refine text_eq ht.1 fun c hc => hp c ?_
      rcases ht.2 with he | ⟨q, he⟩ <;> rw [he] <;> simp [hc]
    have e : nextName ((some (pid, vhdParentName file)).map fun p => (p.1, some p.2)) = .ok (some t) := by
      show (Vhdx.parentFileName (some (vhdParentName file)) >>= _) = _
      rw [(C70_parent_file_name _).2.2 t ht, R.ok_bind]
      simp only [hpl]
      rfl
    rw [e, R.ok.injEq]
    cases p with
    | none => exact ⟨fun h => absurd hh h, fun h => by cases h⟩
    | some t' =>
      constructor
      · rintro ⟨-, h⟩
        rw [fileName_unique ht h]
      · rintro h
        cases h
        exact ⟨hh, ht⟩
  · rw [h3 hh]
    show _ ↔ R.ok none = .ok p
    rw [R.ok.injEq]
    cases p with
    | none => exact ⟨fun _ => rfl, fun _ => hh⟩
    | some t' => exact ⟨fun h => absurd h.1 hh, fun h => by cases h⟩

private theorem vhd_read {dir : List Nat → Option (List Byte)} (name : List Nat) (f : List Byte) :
    (dir name = some f ∧ Spec.Vhd.Supported f) ↔ readFile vhd (fun n => .ok (dir n)) name = .ok f := by
  unfold readFile
  rw [R.ok_bind]
  cases hd : dir name with
  | none => exact ⟨fun h => (by cases h.1), fun h => (by cases h)⟩
  | some g =>
    simp only
    constructor
    · rintro ⟨h, hs⟩
      cases h
      obtain ⟨p, hp, -⟩ := (Vhd.openImage_good f).exists_ok hs
      obtain ⟨id, parent, h1, -⟩ := vhdLinks_ok hs
      show (Vhd.openImage f >>= fun _ => vhdLinks f >>= fun _ => pure ()) >>= _ = _
      rw [hp, R.ok_bind, h1, R.ok_bind]
      rfl
    · intro h
      obtain ⟨_, h1, h⟩ := R.bind_eq_ok.1 h
      obtain ⟨p, hp, -⟩ := R.bind_eq_ok.1 h1
      cases h
      exact ⟨rfl, ((Vhd.openImage_good f).of_ok hp).1⟩

private theorem vhd_fits {f g : List Byte} (hf : Spec.Vhd.Supported f) (hg : Spec.Vhd.Supported g) (hp : VhdHasParent f) :
    vhdParentId f = vhdId g ↔ vhd.setParent f g = .ok () := by
  obtain ⟨id, parent, h1, -, -, h4⟩ := vhdLinks_ok hf
  obtain ⟨pid, h5, rfl⟩ := h4 hp
  obtain ⟨gid, gparent, g1, g2, -⟩ := vhdLinks_ok hg
  show _ ↔ (vhdLinks f >>= fun l => vhdLinks g >>= fun p => checkParent (l.parent.map Prod.fst) p.id) = .ok ()
  rw [h1, R.ok_bind, g1, R.ok_bind]
  show _ ↔ R.require (¬ pid ≠ gid) = .ok ()
  rw [R.require_eq_ok]
  have hl := (hf.2 hp.1).length
  have hl' := hg.1.length
  obtain ⟨u, v, hu, hv, huv⟩ := uuid_inj (a := vhdParentId f) (b := vhdId g) (bytesAt_length (by omega)) (bytesAt_length (by unfold Spec.Vhd.footer; omega))
  rw [h5] at hu
  rw [g2] at hv
  cases hu
  cases hv
  rw [← huv]
  simp

/-- C88. A VHD image opens exactly if its file and all files up to one without a parent are in the directory, supported and made for each
other; the layers are these files, the base first, each with the one before as its parent. Partial: paths with surrogates are left out. -/
theorem C88_vhd_partial (dir : List Nat → Option (List Byte)) (hp : ∀ name f, dir name = some f → PlainName f) (fuel : Nat) (name : List Nat) :
    (∀ files, VhdChain dir name files → files.length ≤ fuel → ∃ layers, openImage vhd (fun n => .ok (dir n)) fuel name = .ok layers ∧
      layers.map Layer.file = files.reverse ∧ Stacked layers) ∧
    (∀ layers, openImage vhd (fun n => .ok (dir n)) fuel name = .ok layers → VhdChain dir name (layers.map Layer.file).reverse ∧ Stacked layers) :=
  openImage_iff (fun name f => vhd_read (dir := dir) name f) (fun name f h p => vhd_next h.2 (hp name f h.1) p)
    (fun _ _ _ _ h1 h2 h3 => vhd_fits h1.2 h3.2 h2.1) fuel name

/-- A VHD file that names itself as its parent is read again and again: `open` does not end. That the identifiers differ is only looked at
after the last file was read. -/
theorem C88_violated_cycle (dir : List Nat → Option (List Byte)) (name : List Nat) (f : List Byte) (hd : dir name = some f)
    (hs : Spec.Vhd.Supported f) (hp : PlainName f) (hparent : VhdParent f (some name)) (fuel : Nat) :
    openImage vhd (fun n => .ok (dir n)) fuel name = .panic := by
  have hr := (vhd_read name f).1 ⟨hd, hs⟩
  have hn := (vhd_next hs hp _).1 hparent
  have hc : ∀ fuel files, chain vhd (fun n => .ok (dir n)) fuel f files = .panic := by
    intro fuel
    induction fuel with
    | zero => exact fun _ => rfl
    | succ fuel ih =>
      intro files
      rw [chain, hn, R.ok_bind]
      simp only
      rw [hr, R.ok_bind, ih]
  unfold openImage
  rw [hr, R.ok_bind, hc]
  rfl

/-! ## VHDX and QCOW -/

/-- The parent of a VHDX file: its name is what follows the last backslash of the path. -/
def VhdxParent (f : List Byte) : Option (List Nat) → Prop
  | none => ∃ v, Vhdx.openFile f = .ok v ∧ v.parentIdentifier = none
  | some t => ∃ v u s, Vhdx.openFile f = .ok v ∧ v.parentIdentifier = some u ∧ v.parentName = some s ∧ VhdxFile.FileName s t

/-- The chain of a VHDX image: what C70 tells about a file is taken from `Vhdx.openFile`. -/
def VhdxChain (dir : List Nat → Option (List Byte)) : List Nat → List (List Byte) → Prop :=
  Chain (fun name f => dir name = some f ∧ ∃ v, Vhdx.openFile f = .ok v) VhdxParent
    (fun f g => ∃ v w, Vhdx.openFile f = .ok v ∧ Vhdx.openFile g = .ok w ∧ v.parentIdentifier = some w.identifier)

private theorem vhdx_next {f : List Byte} {v : Vhdx.File} (hv : Vhdx.openFile f = .ok v)
    (hp : ∀ s, v.parentName = some s → ∀ c ∈ s, c < 0xd800 ∨ (0xe000 ≤ c ∧ c < 0x10000)) (p : Option (List Nat)) :
    VhdxParent f p ↔ vhdx.next f = .ok p := by
  show _ ↔ (Vhdx.openFile f >>= fun v => nextName (v.parentIdentifier.map fun p => (p, v.parentName))) = .ok p
  rw [hv, R.ok_bind]
  cases hi : v.parentIdentifier with
  | none =>
    show _ ↔ R.ok none = .ok p
    rw [R.ok.injEq]
    cases p with
    | none => exact ⟨fun _ => rfl, fun _ => ⟨v, hv, hi⟩⟩
    | some t =>
      refine ⟨?_, fun h => (by cases h)⟩
      rintro ⟨w, u, s, hw, hu, -⟩
      cases hv.symm.trans hw
      rw [hi] at hu
      cases hu
  | some u =>
    cases hs : v.parentName with
    | none =>
      show _ ↔ R.err = .ok p
      refine ⟨?_, fun h => (by cases h)⟩
      cases p with
      | none =>
        rintro ⟨w, hw, h⟩
        cases hv.symm.trans hw
        rw [hi] at h
        cases h
      | some t =>
        rintro ⟨w, u, s, hw, -, h, -⟩
        cases hv.symm.trans hw
        rw [hs] at h
        cases h
    | some s =>
      obtain ⟨t, ht⟩ := (C70_parent_file_name s).2.1
      have hpl : Path.ucs2Text t = t := by
        refine text_eq ht.1 fun c hc => hp s hs c ?_
        rcases ht.2 with he | ⟨q, he⟩ <;> rw [he] <;> simp [hc]
      have e : nextName ((some u).map fun p => (p, some s)) = .ok (some t) := by
        show (Vhdx.parentFileName (some s) >>= _) = _
        rw [(C70_parent_file_name _).2.2 t ht, R.ok_bind]
        simp only [hpl]
        rfl
      rw [e, R.ok.injEq]
      cases p with
      | none =>
        refine ⟨?_, fun h => (by cases h)⟩
        rintro ⟨w, hw, h⟩
        cases hv.symm.trans hw
        rw [hi] at h
        cases h
      | some t' =>
        constructor
        · rintro ⟨w, u', s', hw, -, h, h'⟩
          cases hv.symm.trans hw
          rw [hs] at h
          cases h
          rw [fileName_unique ht h']
        · intro h
          cases h
          exact ⟨v, u, s, hv, hi, hs, ht⟩

private theorem vhdx_fits {f g : List Byte} {v w : Vhdx.File} (hv : Vhdx.openFile f = .ok v) (hw : Vhdx.openFile g = .ok w) :
    (∃ v w, Vhdx.openFile f = .ok v ∧ Vhdx.openFile g = .ok w ∧ v.parentIdentifier = some w.identifier) ↔ vhdx.setParent f g = .ok () := by
  show _ ↔ (Vhdx.openFile f >>= fun v => Vhdx.openFile g >>= fun p => checkParent v.parentIdentifier p.identifier) = .ok ()
  rw [hv, hw, R.ok_bind, R.ok_bind]
  constructor
  · rintro ⟨v', w', h1, h2, h3⟩
    cases h1
    cases h2
    rw [h3]
    exact R.require_true (by simp)
  · intro h
    refine ⟨v, w, rfl, rfl, ?_⟩
    cases hi : v.parentIdentifier with
    | none => rw [hi] at h; cases h
    | some u =>
      rw [hi] at h
      have := R.require_eq_ok.1 h
      rw [not_ne_iff.1 this]

/-- C88, for VHDX images. Partial: paths with surrogates are left out. -/
theorem C88_vhdx_partial (dir : List Nat → Option (List Byte))
    (hp : ∀ name f v s, dir name = some f → Vhdx.openFile f = .ok v → v.parentName = some s → ∀ c ∈ s, c < 0xd800 ∨ (0xe000 ≤ c ∧ c < 0x10000))
    (fuel : Nat) (name : List Nat) :
    (∀ files, VhdxChain dir name files → files.length ≤ fuel → ∃ layers, openImage vhdx (fun n => .ok (dir n)) fuel name = .ok layers ∧
      layers.map Layer.file = files.reverse ∧ Stacked layers) ∧
    (∀ layers, openImage vhdx (fun n => .ok (dir n)) fuel name = .ok layers → VhdxChain dir name (layers.map Layer.file).reverse ∧ Stacked layers) := by
  refine openImage_iff (fun name f => ?_) (fun name f h p => ?_) (fun _ f g _ h1 _ h3 => ?_) fuel name
  · unfold readFile
    rw [R.ok_bind]
    cases hd : dir name with
    | none => exact ⟨fun h => (by cases h.1), fun h => (by cases h)⟩
    | some g =>
      simp only
      constructor
      · rintro ⟨h, v, hv⟩
        cases h
        show (Vhdx.openFile f >>= fun _ => pure ()) >>= _ = _
        rw [hv]
        rfl
      · intro h
        obtain ⟨_, h1, h⟩ := R.bind_eq_ok.1 h
        obtain ⟨v, hv, -⟩ := R.bind_eq_ok.1 h1
        cases h
        exact ⟨rfl, v, hv⟩
  · obtain ⟨hd, v, hv⟩ := h
    exact vhdx_next hv (fun s hs => hp name f v s hd hv hs) p
  · obtain ⟨-, v, hv⟩ := h1
    obtain ⟨-, w, hw⟩ := h3
    exact vhdx_fits hv hw

/-- The same with a VHDX file that names itself as its parent, and there is such a file. -/
theorem C88_violated_cycle_vhdx :
    (∀ (dir : List Nat → Option (List Byte)) (name : List Nat) (f : List Byte), dir name = some f → VhdxParent f (some name) → (∀ c ∈ name, c < 0x80) →
      ∀ fuel, openImage vhdx (fun n => .ok (dir n)) fuel name = .panic) ∧
    ∃ (f : List Byte) (name : List Nat), VhdxParent f (some name) ∧ ∀ c ∈ name, c < 0x80 := by
  refine ⟨fun dir name f hd hparent h80 fuel => ?_, ?_⟩
  · obtain ⟨v, u, s, hv, hu, hs, hn⟩ := hparent
    have hr : readFile vhdx (fun n => .ok (dir n)) name = .ok f := by
      unfold readFile
      rw [R.ok_bind, hd]
      show (Vhdx.openFile f >>= fun _ => pure ()) >>= _ = _
      rw [hv]
      rfl
    have hx : vhdx.next f = .ok (some name) := by
      show (Vhdx.openFile f >>= fun v => nextName (v.parentIdentifier.map fun p => (p, v.parentName))) = _
      rw [hv, R.ok_bind, hu, hs]
      show (Vhdx.parentFileName (some s) >>= _) = _
      rw [(C70_parent_file_name _).2.2 name hn, R.ok_bind]
      simp only [text_eq hn.1 fun c hc => Or.inl (by have := h80 c hc; omega)]
      rfl
    have hc : ∀ fuel files, chain vhdx (fun n => .ok (dir n)) fuel f files = .panic := by
      intro fuel
      induction fuel with
      | zero => exact fun _ => rfl
      | succ fuel ih =>
        intro files
        rw [chain, hx, R.ok_bind]
        simp only
        rw [hr, R.ok_bind, ih]
    unfold openImage
    rw [hr, R.ok_bind, hc]
    rfl
  · obtain ⟨-, f, v, u, hv, hu, hs⟩ := files70
    refine ⟨f, [0x61] ++ (VhdxFile.ascii ".vhdx").map BitVec.toNat, ⟨v, u, _, hv, hu, hs, by decide, Or.inr ⟨[0x2e], rfl⟩⟩, by decide⟩

/-- A file without a parent: the hypotheses of `C88_vhdx_partial` are met, and there is a chain. -/
example : ∃ (f : List Byte), let dir : List Nat → Option (List Byte) := fun n => if n = [0x62] then some f else none
    (∀ name f v s, dir name = some f → Vhdx.openFile f = .ok v → v.parentName = some s → ∀ c ∈ s, c < 0xd800 ∨ (0xe000 ≤ c ∧ c < 0x10000)) ∧
    VhdxChain dir [0x62] [f] := by
  obtain ⟨⟨f, v, hv, hu, hs⟩, -⟩ := files70
  refine ⟨f, fun name g w s hd hw hn => ?_, .base ⟨if_pos rfl, v, hv⟩ ⟨v, hv, hu⟩⟩
  simp only at hd
  split at hd
  · cases hd
    cases hv.symm.trans hw
    rw [hs] at hn
    cases hn
    decide
  · cases hd

/-- The bytes of the name of the backing file, before the first zero. -/
def qcowNameBytes (f : List Byte) : List Byte := (Spec.bytesAt f (fieldBe f 8 8) (fieldBe f 16 4)).takeWhile (· ≠ 0)

/-- The backing file of a QCOW file. -/
def QcowParent (f : List Byte) : Option (List Nat) → Prop
  | none => Spec.Qcow.hasBacking f = false
  | some t => Spec.Qcow.hasBacking f = true ∧ Spec.Utf8Of (qcowNameBytes f) t

/-- The chain of a QCOW image. -/
def QcowChain (dir : List Nat → Option (List Byte)) : List Nat → List (List Byte) → Prop :=
  Chain (fun name f => dir name = some f ∧ Spec.Qcow.Supported f) QcowParent (fun _ _ => True)

/-- The limits of C38, and names that are UTF-8 and without a backslash. -/
structure QcowPlain (f : List Byte) : Prop where
  media : Spec.Qcow.mediaSize f < 2 ^ 63
  bits : Spec.Qcow.version f = 1 ∨ Spec.Qcow.clusterBits f ≠ 63
  name : Spec.Qcow.hasBacking f = true → ∃ t, Spec.Utf8Of (qcowNameBytes f) t
  backslash : ∀ t, Spec.Utf8Of (qcowNameBytes f) t → 0x5c ∉ t

private theorem doubled_eq {t : List Nat} (h : 0x5c ∉ t) : Spec.doubled t = t := by
  induction t with
  | nil => rfl
  | cons c t ih =>
    unfold Spec.doubled at ih ⊢
    rw [List.flatMap_cons, ih fun hc => h (by simp [hc]), if_neg fun hc => h (by simp [hc])]
    rfl

private theorem qcow_next {f : List Byte} (hs : Spec.Qcow.Supported f) (hp : QcowPlain f) (p : Option (List Nat)) :
    QcowParent f p ↔ qcow.next f = .ok p := by
  obtain ⟨h, hh, rfl, -⟩ := (Qcow.readHeader_good f).exists_ok ⟨hs.length, hs.signature, hs.version, hs.clusterBits, hs.l2Bits, hs.features, hs.headerSize⟩
  show _ ↔ qcowName f = .ok p
  unfold qcowName
  rw [hh, R.ok_bind]
  have e : (0 < (Qcow.headerOf f).nameOffset ∧ 0 < (Qcow.headerOf f).nameSize) ↔ Spec.Qcow.hasBacking f = true := by
    unfold Spec.Qcow.hasBacking
    rw [decide_eq_true_iff]
    exact Iff.rfl
  by_cases hb : Spec.Qcow.hasBacking f = true
  · rw [if_pos (e.2 hb)]
    obtain ⟨t, ht⟩ := hp.name hb
    have hr : readExactAt f (Qcow.headerOf f).nameOffset (Qcow.headerOf f).nameSize = .ok (Spec.bytesAt f (fieldBe f 8 8) (fieldBe f 16 4)) :=
      readExactAt_ok (hs.name hb).2.2
    have hu : ∀ t, Spec.Utf8Of (qcowNameBytes f) t → Path.bytesText (ByteString.elements (Spec.bytesAt f (fieldBe f 8 8) (fieldBe f 16 4))) = .ok t := by
      intro t ht
      rw [C15_byte_string, show List.takeWhile (fun x => decide (x ≠ 0)) _ = qcowNameBytes f from rfl, bytes_text ht, doubled_eq (hp.backslash t ht)]
    rw [hr, R.ok_bind, hu t ht, R.ok_bind]
    show _ ↔ R.ok (some t) = .ok p
    rw [R.ok.injEq]
    cases p with
    | none => exact ⟨fun h => absurd (hb.symm.trans h) (by simp), fun h => (by cases h)⟩
    | some t' =>
      constructor
      · rintro ⟨-, h⟩
        have := (hu t ht).symm.trans (hu t' h)
        cases this
        rfl
      · intro h
        cases h
        exact ⟨hb, ht⟩
  · rw [if_neg fun h => hb (e.1 h), R.ok.injEq]
    cases p with
    | none => exact ⟨fun _ => rfl, fun _ => by show Spec.Qcow.hasBacking f = false; simpa using hb⟩
    | some t => exact ⟨fun h => absurd h.1 hb, fun h => (by cases h)⟩

/-- C88, for QCOW images. Partial: within the limits of C38, and names with a backslash are left out. -/
theorem C88_qcow_partial (dir : List Nat → Option (List Byte)) (hp : ∀ name f, dir name = some f → QcowPlain f) (fuel : Nat) (name : List Nat) :
    (∀ files, QcowChain dir name files → files.length ≤ fuel → ∃ layers, openImage qcow (fun n => .ok (dir n)) fuel name = .ok layers ∧
      layers.map Layer.file = files.reverse ∧ Stacked layers) ∧
    (∀ layers, openImage qcow (fun n => .ok (dir n)) fuel name = .ok layers → QcowChain dir name (layers.map Layer.file).reverse ∧ Stacked layers) := by
  refine openImage_iff (fun name f => ?_) (fun name f h p => qcow_next h.2 (hp name f h.1) p) (fun _ f g _ h1 _ h3 => ⟨fun _ => rfl, fun _ => trivial⟩) fuel name
  unfold readFile
  rw [R.ok_bind]
  cases hd : dir name with
  | none => exact ⟨fun h => (by cases h.1), fun h => (by cases h)⟩
  | some g =>
    simp only
    constructor
    · rintro ⟨h, hs⟩
      cases h
      obtain ⟨v, hv, -⟩ := (Qcow.openImage_good f (hp name f hd).media (hp name f hd).bits).exists_ok hs
      show (Qcow.openImage f >>= fun _ => pure ()) >>= _ = _
      rw [hv]
      rfl
    · intro h
      obtain ⟨_, h1, h⟩ := R.bind_eq_ok.1 h
      obtain ⟨v, hv, -⟩ := R.bind_eq_ok.1 h1
      cases h
      exact ⟨rfl, ((Qcow.openImage_good f (hp name f hd).media (hp name f hd).bits).of_ok hv).2⟩

private theorem raw_err {raw : List Byte} (h : Spec.bytesAt raw 0 4 ≠ [0x51#8, 0x46#8, 0x49#8, 0xfb#8]) : Qcow.openImage raw = .err := by
  have hg := Qcow.readHeader_good raw
  have : Qcow.readHeader raw = .err := by
    cases hr : Qcow.readHeader raw with
    | ok x => exact absurd (hg.of_ok hr).2.signature h
    | err => rfl
    | panic => exact absurd hr hg.ne_panic
  unfold Qcow.openImage
  rw [this]
  rfl

/-- A backing file without a QCOW header, so a raw image: the image that has it as its backing file cannot be opened. -/
theorem C88_violated_raw (dir : List Nat → Option (List Byte)) (name t : List Nat) (f raw : List Byte) (hd : dir name = some f) (hs : Spec.Qcow.Supported f)
    (hp : QcowPlain f) (hparent : QcowParent f (some t)) (ht : dir t = some raw) (hraw : Spec.bytesAt raw 0 4 ≠ [0x51#8, 0x46#8, 0x49#8, 0xfb#8]) (fuel : Nat) :
    openImage qcow (fun n => .ok (dir n)) (fuel + 1) name = .err := by
  obtain ⟨v, hv, -⟩ := (Qcow.openImage_good f hp.media hp.bits).exists_ok hs
  have h1 : qcow.read f = .ok () := by
    show (Qcow.openImage f >>= fun _ => pure ()) = _
    rw [hv]
    rfl
  have h2 : qcow.read raw = .err := by
    show (Qcow.openImage raw >>= fun _ => pure ()) = _
    rw [raw_err hraw]
    rfl
  unfold openImage readFile
  simp only [R.ok_bind, hd]
  rw [h1, R.ok_bind]
  show (chain qcow _ (fuel + 1) f [] >>= _) = _
  rw [chain, (qcow_next hs hp _).1 hparent, R.ok_bind]
  unfold readFile
  simp only [R.ok_bind, ht]
  rw [h2]
  rfl

/-! ## Examples -/

/-- A VHD file without data: its type, its identifier, that of its parent and the path of the parent, all with one byte. -/
def vhd88 (type id parent : Byte) (path : List Byte) : List Byte :=
  List.replicate 512 0#8 ++
  ([0x63#8, 0x78#8, 0x73#8, 0x70#8, 0x61#8, 0x72#8, 0x73#8, 0x65#8] ++ List.replicate 8 0xff#8 ++ [0#8, 0#8, 0#8, 0#8, 0#8, 0#8, 6#8, 0#8] ++
    [0#8, 1#8, 0#8, 0#8] ++ [0#8, 0#8, 0#8, 0#8] ++ [0#8, 0x20#8, 0#8, 0#8] ++ List.replicate 4 0#8 ++ List.replicate 16 parent ++ List.replicate 8 0#8 ++
    path ++ List.replicate (960 - path.length) 0#8) ++
  ([0x63#8, 0x6f#8, 0x6e#8, 0x65#8, 0x63#8, 0x74#8, 0x69#8, 0x78#8] ++ List.replicate 4 0#8 ++ [0#8, 1#8, 0#8, 0#8] ++ [0#8, 0#8, 0#8, 0#8, 0#8, 0#8, 2#8, 0#8] ++
    List.replicate 36 0#8 ++ [0#8, 0#8, 0#8, type] ++ List.replicate 4 0#8 ++ List.replicate 16 id ++ List.replicate 428 0#8)

/-- "a" in a folder: `.\a`. -/
def path88 : List Byte := [0#8, 0x2e#8, 0#8, 0x5c#8, 0#8, 0x61#8]

private def child88 : List Byte := vhd88 4#8 2#8 1#8 path88
private def base88 : List Byte := vhd88 3#8 1#8 0#8 []

private theorem child_name : vhdParentName child88 = [0x2e, 0x5c, 0x61] := by decide +kernel

private theorem child_parent : VhdParent child88 (some [0x61]) :=
  ⟨⟨by decide +kernel, by decide +kernel⟩, by decide, Or.inr ⟨[0x2e], by rw [child_name]; rfl⟩⟩

private theorem child_supported : Spec.Vhd.Supported child88 := (Props.Vhd.supported39 (by decide +kernel)).1

/-- A differential disk "b" with its parent "a": the hypotheses of `C88_vhd_partial` are met, and there is a chain. -/
example : let dir : List Nat → Option (List Byte) := fun n => if n = [0x61] then some base88 else if n = [0x62] then some child88 else none
    (∀ name f, dir name = some f → PlainName f) ∧ VhdChain dir [0x62] [child88, base88] := by
  have hb : vhdParentName base88 = [] := by decide +kernel
  refine ⟨fun name f h => ?_, ?_⟩
  · simp only at h
    split at h
    · cases h
      unfold PlainName
      rw [hb]
      simp
    · split at h
      · cases h
        unfold PlainName
        rw [child_name]
        decide
      · cases h
  · refine .layer ⟨by simp, child_supported⟩ child_parent (.base ⟨by simp, (Props.Vhd.supported39 (by decide +kernel)).1⟩ ?_) (by decide +kernel)
    intro h
    exact h.2 (by decide +kernel)

/-- The hypotheses of `C88_violated_cycle` are met: the same file is now named "a" itself. -/
example : let dir : List Nat → Option (List Byte) := fun n => if n = [0x61] then some child88 else none
    dir [0x61] = some child88 ∧ Spec.Vhd.Supported child88 ∧ PlainName child88 ∧ VhdParent child88 (some [0x61]) :=
  ⟨by simp, child_supported, by unfold PlainName; rw [child_name]; decide, child_parent⟩

/-- A QCOW image with the backing file "r". -/
private def qcow88 : List Byte :=
  [0x51#8, 0x46#8, 0x49#8, 0xfb#8, 0#8, 0#8, 0#8, 1#8] ++ [0#8, 0#8, 0#8, 0#8, 0#8, 0#8, 0#8, 100#8] ++ [0#8, 0#8, 0#8, 1#8] ++
  List.replicate 4 0#8 ++ List.replicate 7 0#8 ++ [32#8] ++ [3#8, 1#8, 0#8, 0#8] ++ List.replicate 4 0#8 ++
  List.replicate 7 0#8 ++ [112#8] ++ List.replicate 52 0#8 ++ [0x72#8] ++ List.replicate 11 0#8

/-- The same without a backing file. -/
private def last88 : List Byte := image1 0#8 32#8 []

private theorem qcow_name : qcowNameBytes qcow88 = [0x72#8] := by decide +kernel

private theorem qcow_plain {f : List Byte} {t : List Nat} (h1 : Spec.Qcow.mediaSize f < 2 ^ 63) (h2 : Spec.Qcow.version f = 1)
    (h3 : qcowNameBytes f = t.flatMap Utf8.encode) (h4 : ∀ c ∈ t, Spec.Utf8.isScalar c) (h5 : 0x5c ∉ t) : QcowPlain f := by
  have hu : Spec.Utf8Of (qcowNameBytes f) t := ⟨h4, h3⟩
  refine ⟨h1, Or.inl h2, fun _ => ⟨t, hu⟩, fun t' ht' hc => ?_⟩
  have a := bytes_text hu
  rw [bytes_text ht', doubled_eq h5, R.ok.injEq] at a
  refine h5 ?_
  rw [← a]
  unfold Spec.doubled
  exact List.mem_flatMap.2 ⟨0x5c, hc, by simp⟩

private theorem qcow_plain88 : QcowPlain qcow88 :=
  qcow_plain (t := [0x72]) (by decide +kernel) (by decide +kernel) (by rw [qcow_name]; decide) (by simp [Spec.Utf8.isScalar]) (by decide)

private theorem qcow_parent88 : QcowParent qcow88 (some [0x72]) := ⟨by decide +kernel, by simp [Spec.Utf8.isScalar], by rw [qcow_name]; decide⟩

private theorem qcow_supported88 : Spec.Qcow.Supported qcow88 := supported1 (by decide +kernel)

/-- The image "q" and its backing file "r": the hypotheses of `C88_qcow_partial` are met, and there is a chain. -/
example : let dir : List Nat → Option (List Byte) := fun n => if n = [0x72] then some last88 else if n = [0x71] then some qcow88 else none
    (∀ name f, dir name = some f → QcowPlain f) ∧ QcowChain dir [0x71] [qcow88, last88] := by
  have hl : QcowPlain last88 := qcow_plain (t := []) (by decide +kernel) (by decide +kernel) (by decide +kernel) (by simp) (by simp)
  refine ⟨fun name f h => ?_, ?_⟩
  · simp only at h
    split at h
    · cases h
      exact hl
    · split at h
      · cases h
        exact qcow_plain88
      · cases h
  · exact .layer ⟨by simp, qcow_supported88⟩ qcow_parent88 (.base ⟨by simp, supported1 (by decide +kernel)⟩ (by show Spec.Qcow.hasBacking _ = false; decide +kernel)) trivial

/-- The hypotheses of `C88_violated_raw` are met. -/
example : let dir : List Nat → Option (List Byte) := fun n => if n = [0x72] then some (List.replicate 512 0#8) else some qcow88
    dir [0x71] = some qcow88 ∧ Spec.Qcow.Supported qcow88 ∧ QcowPlain qcow88 ∧ QcowParent qcow88 (some [0x72]) ∧ dir [0x72] = some (List.replicate 512 0#8) ∧
    Spec.bytesAt (List.replicate 512 0#8) 0 4 ≠ [0x51#8, 0x46#8, 0x49#8, 0xfb#8] :=
  ⟨if_neg (by decide), qcow_supported88, qcow_plain88, qcow_parent88, if_pos rfl, by decide +kernel⟩

end Keramics.Props
