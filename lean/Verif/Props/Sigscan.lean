import Verif.Base.Tactics
import Verif.Model.Sigscan
import Verif.Spec.Sigscan

/-!
# C47, C48: signature scanning
-/

namespace Keramics.Props
open Keramics.Sigscan Keramics.Spec

/-- What a match of an offset-bound signature in a buffer means. -/
private theorem scan_true {s : Signature} {dataOffset dataSize bufferOffset : Nat} {buffer : List Byte} (hs : s.type ≠ .unbound)
    (h : s.scan dataOffset dataSize buffer bufferOffset = .ok true) :
    ∃ p, s.position dataOffset dataSize = .ok p ∧ dataOffset ≤ p ∧ p - dataOffset + s.pattern.length ≤ buffer.length ∧
      p - dataOffset + s.pattern.length ≤ dataSize ∧ (buffer.drop (p - dataOffset)).take s.pattern.length = s.pattern := by
  unfold Signature.scan at h
  obtain ⟨p, hp, h⟩ := R.bind_eq_ok.1 h
  refine ⟨p, hp, ?_⟩
  split at h
  · cases h
  rename_i hle
  simp only [if_neg hs] at h
  obtain ⟨stop, hst, h⟩ := R.bind_eq_ok.1 h
  have hstop : stop = p - dataOffset + s.pattern.length := by
    unfold R.addU at hst; split at hst
    · cases hst; rfl
    · cases hst
  split at h
  · cases h
  rename_i hb
  obtain ⟨f, hf, h⟩ := R.bind_eq_ok.1 h
  have hff : f = (buffer.drop (p - dataOffset)).take (stop - (p - dataOffset)) := by
    unfold R.slice at hf; split at hf
    · cases hf; rfl
    · cases hf
  split at h
  · cases h
  rename_i hne
  rw [ne_eq, not_not] at hne
  have e : stop - (p - dataOffset) = s.pattern.length := by omega
  rw [e] at hff
  exact ⟨by omega, by omega, by omega, by rw [← hff, hne]⟩

/-- A match in a buffer that holds the data is an occurrence in the data. -/
private theorem scan_occurs {data : List Byte} {s : Signature} {dataOffset bufferOffset : Nat} {buffer : List Byte} (hs : s.type ≠ .unbound)
    (hw : Holds data dataOffset buffer) (h : s.scan dataOffset data.length buffer bufferOffset = .ok true) {p : Nat}
    (hp : s.position dataOffset data.length = .ok p) : OccursAt data s p := by
  obtain ⟨q, hq, h1, h2, h3, h4⟩ := scan_true hs h
  obtain rfl : p = q := by rw [hp] at hq; cases hq; rfl
  have hfit : p + s.pattern.length ≤ data.length := by
    rcases hw.1 with hw | hw <;> omega
  refine ⟨hfit, fun i hi => ?_, ?_⟩
  · have := hw.2 (p - dataOffset + i) (by omega) (by omega)
    rw [show dataOffset + (p - dataOffset + i) = p + i by omega] at this
    rw [← this]
    conv => rhs; rw [← h4]
    rw [List.getElem?_take_of_lt hi, List.getElem?_drop]
  · unfold Signature.position at hp
    split at hp
    · rename_i e; rw [e]; show p + s.offset = _
      unfold R.subU at hp; split at hp
      · cases hp; omega
      · cases hp
    · rename_i e; rw [e]; cases hp; rfl
    · rename_i e; exact absurd e hs

/-- All signatures of a tree satisfy `S`. -/
def Leaves (S : Signature → Prop) : Tree → Prop
  | .absent => True
  | .leaf s => S s
  | .node _ objects => ∀ k, Leaves S (objects k)

theorem tree_found {S : Signature → Prop} {t : Tree} (ht : Leaves S t) {dataOffset dataSize bufferOffset : Nat} {buffer : List Byte} {s : Signature}
    (h : t.scan dataOffset dataSize buffer bufferOffset = .ok (some s)) : S s ∧ s.scan dataOffset dataSize buffer bufferOffset = .ok true := by
  induction t with
  | absent => cases h
  | leaf u =>
    obtain ⟨b, hb, h⟩ := R.bind_eq_ok.1 h
    cases b with
    | false => cases h
    | true => cases h; exact ⟨ht, hb⟩
  | node o objects ih =>
    rw [Tree.scan] at h
    split at h
    · cases h
    simp only at h
    split at h
    · exact ih none (ht none) h
    · split at h
      · exact ih none (ht none) h
      · rename_i u hu
        obtain ⟨b, hb, h⟩ := R.bind_eq_ok.1 h
        cases b with
        | false => exact ih none (ht none) h
        | true =>
          cases h
          have := ht (byteAt dataOffset dataSize buffer (bufferOffset + o))
          rw [hu] at this
          exact ⟨this, hb⟩
      · exact ih _ (ht _) h

private theorem mem_insertKey {α} {lt : α → α → Bool} {x y : α} {l : List α} (h : y ∈ insertKey lt x l) : y = x ∨ y ∈ l := by
  induction l with
  | nil => simpa [insertKey] using h
  | cons z zs ih =>
    rw [insertKey] at h
    split at h
    · simpa using h
    · split at h
      · rcases List.mem_cons.1 h with rfl | h
        · simp
        · rcases ih h with h | h <;> simp [h]
      · exact .inr h

private theorem mem_insertKey_self {α} {lt : α → α → Bool} (ha : ∀ a b, lt a b = false → lt b a = false → a = b) (x : α) (l : List α) : x ∈ insertKey lt x l := by
  induction l with
  | nil => simp [insertKey]
  | cons z zs ih =>
    rw [insertKey]
    split
    · simp
    · rename_i h1
      split
      · simp [ih]
      · rename_i h2
        simp [ha x z (by simpa using h1) (by simpa using h2)]

private theorem mem_insertKey_of_mem {α} {lt : α → α → Bool} {x y : α} {l : List α} (h : y ∈ l) : y ∈ insertKey lt x l := by
  induction l with
  | nil => simp at h
  | cons z zs ih =>
    rw [insertKey]
    split
    · simp [List.mem_cons.1 h]
    · split
      · rcases List.mem_cons.1 h with rfl | h
        · simp
        · simp [ih h]
      · exact h

private theorem mem_values {entries : List (Nat × Byte × Signature)} {o : Nat} {v : Byte} {s : Signature} (h : (o, v, s) ∈ entries) : v ∈ values entries o := by
  induction entries with
  | nil => simp at h
  | cons e es ih =>
    unfold values at ih ⊢
    rw [List.foldr_cons]
    rcases List.mem_cons.1 h with rfl | h
    · rw [if_pos rfl]
      exact mem_insertKey_self (fun a b h1 h2 => by simp at h1 h2; exact BitVec.le_antisymm h2 h1) _ _
    · split
      · exact mem_insertKey_of_mem (ih h)
      · exact ih h

private theorem mem_group {entries : List (Nat × Byte × Signature)} {o : Nat} {v : Byte} {s : Signature} : s ∈ group entries o v ↔ (o, v, s) ∈ entries := by
  unfold group
  simp only [List.mem_map, List.mem_filter, Bool.and_eq_true, decide_eq_true_eq]
  constructor
  · rintro ⟨⟨a, b, c⟩, ⟨h, rfl, rfl⟩, rfl⟩; exact h
  · intro h; exact ⟨_, ⟨h, rfl, rfl⟩, rfl⟩

private theorem mem_fill {largest : Nat} {ignore : List Nat} {signatures : List Signature} {o : Nat} {v : Byte} {s : Signature} :
    (o, v, s) ∈ fill largest ignore signatures ↔ s ∈ signatures ∧ o ∉ ignore ∧ ∃ i, s.pattern[i]? = some v ∧ o = place largest s + i := by
  unfold fill
  simp only [List.mem_flatMap, List.mem_filter, List.mem_map, Bool.not_eq_true', List.contains_eq_mem, decide_eq_false_iff_not]
  constructor
  · rintro ⟨u, hu, ⟨⟨b, i⟩, hb, e⟩, ho⟩
    simp only [Prod.mk.injEq] at e
    obtain ⟨rfl, rfl, rfl⟩ := e
    exact ⟨hu, ho, i, List.mem_zipIdx_iff_getElem?.1 hb, rfl⟩
  · rintro ⟨hs, ho, i, hi, rfl⟩
    exact ⟨s, hs, ⟨(v, i), List.mem_zipIdx_iff_getElem?.2 hi, rfl⟩, ho⟩

private theorem mapM_lookup {f : Byte → R Tree} {vs : List Byte} {children : List (Byte × Tree)}
    (h : (vs.mapM fun v => do let t ← f v; return (v, t)) = .ok children) :
    (∀ v t, (children.lookup v) = some t → v ∈ vs ∧ f v = .ok t) ∧ ∀ v ∈ vs, ∃ t, children.lookup v = some t := by
  induction vs generalizing children with
  | nil =>
    rw [List.mapM_nil] at h
    cases h
    exact ⟨fun v t h => by simp at h, fun v h => by simp at h⟩
  | cons w ws ih =>
    rw [List.mapM_cons] at h
    obtain ⟨p, hp, h⟩ := R.bind_eq_ok.1 h
    obtain ⟨t, ht, hp⟩ := R.bind_eq_ok.1 hp
    cases hp
    obtain ⟨cs, hcs, h⟩ := R.bind_eq_ok.1 h
    cases h
    obtain ⟨i1, i2⟩ := ih hcs
    constructor
    · intro v u hv
      rw [List.lookup_cons] at hv
      split at hv
      · rename_i e
        cases hv
        have : v = w := by simpa using e
        subst this
        exact ⟨by simp, ht⟩
      · obtain ⟨a, b⟩ := i1 v u hv
        exact ⟨List.mem_cons_of_mem _ a, b⟩
    · intro v hv
      rw [List.lookup_cons]
      split
      · exact ⟨t, rfl⟩
      · rename_i e
        rcases List.mem_cons.1 hv with rfl | hv
        · simp at e
        · exact i2 v hv

/-- What `object` makes: a leaf of the only signature, or a node for all. -/
private theorem object_cases {build : List Signature → R Tree} {signatures others : List Signature} {t : Tree} (h : object build signatures others = .ok t) :
    (∃ s, signatures = [s] ∧ t = .leaf s) ∨ build (signatures ++ others) = .ok t := by
  unfold object at h
  split at h
  · rename_i s; cases h; exact .inl ⟨s, rfl, rfl⟩
  · exact .inr h

private theorem default_cases {build : List Signature → R Tree} {rest : List Signature} {t : Tree} (h : defaultObject build rest = .ok t) :
    (rest = [] ∧ t = .absent) ∨ (∃ s, rest = [s] ∧ t = .leaf s) ∨ build rest = .ok t := by
  unfold defaultObject at h
  split at h
  · cases h; exact .inl ⟨rfl, rfl⟩
  · rcases object_cases h with h | h
    · exact .inr (.inl h)
    · rw [List.append_nil] at h; exact .inr (.inr h)

/-- The parts of a built node. -/
private theorem build_parts {largest depth : Nat} {ignore : List Nat} {signatures : List Signature} {t : Tree}
    (h : Sigscan.build largest (depth + 1) ignore signatures = .ok t) : ∃ o children default,
      t = .node o (objectsOf children default) ∧
      ((values (fill largest ignore signatures) o).mapM fun v => do
        let t ← object (Sigscan.build largest depth (ignore ++ [o])) (group (fill largest ignore signatures) o v)
          (remaining signatures (fill largest ignore signatures) o)
        return (v, t)) = .ok children ∧
      defaultObject (Sigscan.build largest depth (ignore ++ [o])) (remaining signatures (fill largest ignore signatures) o) = .ok default := by
  rw [Sigscan.build] at h
  split at h
  · cases h
  · rename_i o _
    obtain ⟨children, hc, h⟩ := R.bind_eq_ok.1 h
    obtain ⟨default, hd, h⟩ := R.bind_eq_ok.1 h
    cases h
    exact ⟨o, children, default, rfl, hc, hd⟩

private theorem build_leaves {S : Signature → Prop} {largest depth : Nat} {ignore : List Nat} {signatures : List Signature} {t : Tree}
    (hs : ∀ s ∈ signatures, S s) (h : Sigscan.build largest depth ignore signatures = .ok t) : Leaves S t := by
  induction depth generalizing ignore signatures t with
  | zero => cases h
  | succ depth ih =>
    obtain ⟨o, children, default, rfl, hc, hd⟩ := build_parts h
    have hg : ∀ v, ∀ s ∈ group (fill largest ignore signatures) o v, S s := fun v s h => hs s (mem_fill.1 (mem_group.1 h)).1
    have hr : ∀ s ∈ remaining signatures (fill largest ignore signatures) o, S s := fun s h => hs s (List.mem_filter.1 h).1
    have hdef : Leaves S default := by
      rcases default_cases hd with ⟨_, rfl⟩ | ⟨s, e, rfl⟩ | hb
      · trivial
      · exact hr s (by rw [e]; simp)
      · exact ih hr hb
    intro k
    cases k with
    | none => exact hdef
    | some b =>
      show Leaves S ((children.lookup b).getD .absent)
      cases hl : children.lookup b with
      | none => trivial
      | some u =>
        rcases object_cases ((mapM_lookup hc).1 b u hl).2 with ⟨s, e, rfl⟩ | hb
        · exact hg b s (by rw [e]; simp)
        · refine ih (fun s h => ?_) hb
          rcases List.mem_append.1 h with h | h
          · exact hg b s h
          · exact hr s h

/-- The tree finds a signature when one matches: the signature is not lost while descending. -/
private theorem build_finds {largest depth : Nat} {ignore : List Nat} {signatures : List Signature} {t : Tree} {s : Signature}
    {dataOffset dataSize bufferOffset : Nat} {buffer : List Byte}
    (hs : s ∈ signatures) (hd : ∀ u ∈ signatures, u.pattern = s.pattern → u = s) (h0 : dataOffset < dataSize)
    (hbytes : ∀ i, i < s.pattern.length → byteAt dataOffset dataSize buffer (bufferOffset + (place largest s + i)) = s.pattern[i]?)
    (hmatch : s.scan dataOffset dataSize buffer bufferOffset = .ok true)
    (h : Sigscan.build largest depth ignore signatures = .ok t) : t.scan dataOffset dataSize buffer bufferOffset ≠ .ok none := by
  induction depth generalizing ignore signatures t with
  | zero => cases h
  | succ depth ih =>
    obtain ⟨o, children, default, rfl, hc, hdef⟩ := build_parts h
    rw [Tree.scan, if_neg (by omega)]
    simp only
    have leafOk : (Tree.leaf s).scan dataOffset dataSize buffer bufferOffset ≠ .ok none := by
      rw [Tree.scan, hmatch]; intro h; cases h
    -- the signature has a byte at the offset, or is one of the remaining
    by_cases hin : ∃ v, (o, v, s) ∈ fill largest ignore signatures
    · obtain ⟨v, hv⟩ := hin
      obtain ⟨-, ho, i, hi, rfl⟩ := mem_fill.1 hv
      have hk : byteAt dataOffset dataSize buffer (bufferOffset + (place largest s + i)) = some v := by
        rw [hbytes i (List.getElem?_eq_some_iff.1 hi).1, hi]
      rw [hk, if_neg (by simp)]
      obtain ⟨u, hu⟩ := (mapM_lookup hc).2 v (mem_values hv)
      have hobj : objectsOf children default (some v) = u := by show (children.lookup v).getD _ = _; rw [hu]; rfl
      rw [hobj]
      have hsg := mem_group.2 hv
      rcases object_cases ((mapM_lookup hc).1 v u hu).2 with ⟨w, e, rfl⟩ | hb
      · rw [e] at hsg
        obtain rfl : s = w := by simpa using hsg
        simp only
        rw [hmatch]; intro h; cases h
      · have := ih (List.mem_append_left _ hsg) (fun x hx he => hd x ?_ he) hb
        · cases depth with
          | zero => cases hb
          | succ depth =>
            obtain ⟨o', c', d', rfl, -, -⟩ := build_parts hb
            simpa only using this
        · rcases List.mem_append.1 hx with hx | hx
          · exact (mem_fill.1 (mem_group.1 hx)).1
          · exact (List.mem_filter.1 hx).1
    · have hrem : s ∈ remaining signatures (fill largest ignore signatures) o := by
        refine List.mem_filter.2 ⟨hs, ?_⟩
        rw [Bool.not_eq_true', List.any_eq_false]
        rintro ⟨a, b, c⟩ he hcond
        simp only [Bool.and_eq_true, decide_eq_true_eq] at hcond
        obtain ⟨rfl, hp⟩ := hcond
        have := hd c (mem_fill.1 he).1 hp
        subst this
        exact hin ⟨b, he⟩
      have hrest : ∀ x ∈ remaining signatures (fill largest ignore signatures) o, x ∈ signatures := fun x hx => (List.mem_filter.1 hx).1
      have hdefault : (objectsOf children default none).scan dataOffset dataSize buffer bufferOffset ≠ .ok none := by
        show default.scan _ _ _ _ ≠ _
        rcases default_cases hdef with ⟨e, rfl⟩ | ⟨w, e, rfl⟩ | hb
        · rw [e] at hrem; simp at hrem
        · rw [e] at hrem
          obtain rfl : s = w := by simpa using hrem
          exact leafOk
        · exact ih hrem (fun x hx he => hd x (hrest x hx) he) hb
      split
      · exact hdefault
      · rename_i hkey
        obtain ⟨b, hb⟩ := Option.ne_none_iff_exists'.1 hkey
        rw [hb]
        have hobj : objectsOf children default (some b) = (children.lookup b).getD .absent := rfl
        rw [hobj]
        cases hl : children.lookup b with
        | none => exact hdefault
        | some u =>
          rcases object_cases ((mapM_lookup hc).1 b u hl).2 with ⟨w, e, rfl⟩ | hbb
          · simp only [Option.getD_some]
            cases hw : w.scan dataOffset dataSize buffer bufferOffset with
            | ok r => cases r with
              | true => intro h; cases h
              | false => exact hdefault
            | err => intro h; cases h
            | panic => intro h; cases h
          · have := ih (List.mem_append_right _ hrem) (fun x hx he => hd x ?_ he) hbb
            · cases depth with
              | zero => cases hbb
              | succ depth =>
                obtain ⟨o', c', d', rfl, -, -⟩ := build_parts hbb
                simpa only [Option.getD_some] using this
            · rcases List.mem_append.1 hx with hx | hx
              · exact (mem_fill.1 (mem_group.1 hx)).1
              · exact hrest x hx

/-- The root of a built tree. -/
theorem scanTree_parts {depth : Nat} {type : PatternType} {signatures : List Signature} {tree : ScanTree}
    (h : ScanTree.build depth type signatures = .ok tree) : tree.type = type ∧
      ((signatures.filter (fun s => decide (s.type = type)) = [] ∧ tree = ⟨type, 0, .node 0 fun _ => .absent, ⟨0, fun _ => none, 0⟩⟩) ∨
       (Sigscan.build tree.rangeEnd depth [] (signatures.filter fun s => decide (s.type = type)) = .ok tree.root ∧
        tree.rangeEnd = largestEnd (signatures.filter fun s => decide (s.type = type)))) := by
  unfold ScanTree.build at h
  simp only at h
  split at h
  · rename_i e; cases h; exact ⟨rfl, .inl ⟨e, rfl⟩⟩
  · obtain ⟨root, hr, h⟩ := R.bind_eq_ok.1 h
    obtain ⟨skip, -, h⟩ := R.bind_eq_ok.1 h
    cases h
    exact ⟨rfl, .inr ⟨hr, rfl⟩⟩

private theorem scanTree_leaves {depth : Nat} {type : PatternType} {signatures : List Signature} {tree : ScanTree}
    (h : ScanTree.build depth type signatures = .ok tree) : Leaves (fun s => s ∈ signatures ∧ s.type = type) tree.root := by
  obtain ⟨-, ⟨-, rfl⟩ | ⟨hb, -⟩⟩ := scanTree_parts h
  · intro k; trivial
  · exact build_leaves (fun s hs => by simpa using hs) hb

/-- A result of a scan: an offset-bound signature occurs at its place. -/
private def Sound (data : List Byte) (signatures : List Signature) (k : Nat) (s : Signature) : Prop :=
  s ∈ signatures ∧ (s.type ≠ .unbound → OccursAt data s k)

/-- What a scan adds to the results is sound, and results are only replaced by others. -/
private def Adds (data : List Byte) (signatures : List Signature) (before after : Results) : Prop :=
  ∀ k, after k = before k ∨ ∃ s, after k = some s ∧ Sound data signatures k s

private theorem Adds.trans {data : List Byte} {signatures : List Signature} {a b c : Results} (h1 : Adds data signatures a b) (h2 : Adds data signatures b c) :
    Adds data signatures a c := by
  intro k
  rcases h2 k with h | h
  · rcases h1 k with h' | h'
    · exact .inl (by rw [h, h'])
    · rw [h]; exact .inr h'
  · exact .inr h

private theorem scanWith_adds {data : List Byte} {signatures : List Signature} {tree : ScanTree}
    (ht : Leaves (fun s => s ∈ signatures ∧ s.type = tree.type) tree.root) {dataOffset : Nat} {buffer : List Byte} (hw : Holds data dataOffset buffer)
    {rounds bufferOffset : Nat} {results results' : Results} (h : scanWith tree dataOffset data.length buffer rounds bufferOffset results = .ok results') :
    Adds data signatures results results' := by
  induction rounds generalizing bufferOffset results with
  | zero => cases h
  | succ rounds ih =>
    rw [scanWith] at h
    split at h
    · obtain ⟨found, hf, h⟩ := R.bind_eq_ok.1 h
      obtain ⟨⟨mid, skip⟩, hr, h⟩ := R.bind_eq_ok.1 h
      have hmid : Adds data signatures results mid := by
        cases found with
        | none =>
          obtain ⟨v, -, hv⟩ := R.bind_eq_ok.1 hr
          cases hv
          exact fun k => .inl rfl
        | some s =>
          obtain ⟨p, hp, hv⟩ := R.bind_eq_ok.1 hr
          cases hv
          obtain ⟨⟨hs, -⟩, hscan⟩ := tree_found ht hf
          intro k
          by_cases hk : k = p
          · subst hk
            exact .inr ⟨s, if_pos rfl, hs, fun hb => scan_occurs hb hw hscan hp⟩
          · exact .inl (if_neg hk)
      simp only at h
      split at h
      · cases h; exact hmid
      · exact hmid.trans (ih h)
    · cases h; exact fun k => .inl rfl

theorem scanner_parts {depth : Nat} {signatures : List Signature} {scanner : Scanner} (h : Scanner.build depth signatures = .ok scanner) :
    ScanTree.build depth .boundToStart signatures = .ok scanner.header ∧ ScanTree.build depth .boundToEnd signatures = .ok scanner.footer ∧
      ScanTree.build depth .unbound signatures = .ok scanner.unbound := by
  obtain ⟨a, ha, h⟩ := R.bind_eq_ok.1 h
  obtain ⟨b, hb, h⟩ := R.bind_eq_ok.1 h
  obtain ⟨c, hc, h⟩ := R.bind_eq_ok.1 h
  cases h
  exact ⟨ha, hb, hc⟩

theorem leaves_of {depth : Nat} {type : PatternType} {signatures : List Signature} {tree : ScanTree}
    (h : ScanTree.build depth type signatures = .ok tree) : Leaves (fun s => s ∈ signatures ∧ s.type = tree.type) tree.root := by
  rw [(scanTree_parts h).1]; exact scanTree_leaves h

private theorem scanBuffer_parts {scanner : Scanner} {dataOffset dataSize : Nat} {buffer : List Byte} {r r' : Results} (hb : buffer ≠ [])
    (h : scanBuffer scanner dataOffset dataSize buffer r = .ok r') : ∃ a b, scanHeader scanner dataOffset dataSize buffer r = .ok a ∧
      scanFooter scanner dataOffset dataSize buffer a = .ok b ∧ scanUnbound scanner dataOffset dataSize buffer b = .ok r' := by
  unfold scanBuffer at h
  rw [if_neg hb] at h
  obtain ⟨a, ha, h⟩ := R.bind_eq_ok.1 h
  obtain ⟨b, hb, h⟩ := R.bind_eq_ok.1 h
  exact ⟨a, b, ha, hb, h⟩

private theorem scanFooter_adds {data : List Byte} {signatures : List Signature} {depth : Nat} {scanner : Scanner} (hb : Scanner.build depth signatures = .ok scanner)
    {dataOffset : Nat} {buffer : List Byte} (hw : Holds data dataOffset buffer) {r r' : Results}
    (h : scanFooter scanner dataOffset data.length buffer r = .ok r') : Adds data signatures r r' := by
  unfold scanFooter at h
  simp only at h
  split at h
  · exact scanWith_adds (leaves_of (scanner_parts hb).2.1) hw h
  · cases h; exact fun k => .inl rfl

private theorem scanUnbound_adds {data : List Byte} {signatures : List Signature} {depth : Nat} {scanner : Scanner} (hb : Scanner.build depth signatures = .ok scanner)
    {dataOffset : Nat} {buffer : List Byte} (hw : Holds data dataOffset buffer) {r r' : Results}
    (h : scanUnbound scanner dataOffset data.length buffer r = .ok r') : Adds data signatures r r' := by
  unfold scanUnbound at h
  split at h
  · exact scanWith_adds (leaves_of (scanner_parts hb).2.2) hw h
  · cases h; exact fun k => .inl rfl

private theorem scanBuffer_adds {data : List Byte} {signatures : List Signature} {depth : Nat} {scanner : Scanner} (hb : Scanner.build depth signatures = .ok scanner)
    {dataOffset : Nat} {buffer : List Byte} (hw : Holds data dataOffset buffer) {r r' : Results}
    (h : scanBuffer scanner dataOffset data.length buffer r = .ok r') : Adds data signatures r r' := by
  by_cases he : buffer = []
  · rw [scanBuffer, if_pos he] at h; cases h; exact fun k => .inl rfl
  obtain ⟨a, b, h1, h2, h3⟩ := scanBuffer_parts he h
  have hh : Adds data signatures r a := by
    unfold scanHeader at h1
    split at h1
    · exact scanWith_adds (leaves_of (scanner_parts hb).1) hw h1
    · cases h1; exact fun k => .inl rfl
  exact (hh.trans (scanFooter_adds hb hw h2)).trans (scanUnbound_adds hb hw h3)

private theorem scanAll_adds {data : List Byte} {signatures : List Signature} {depth : Nat} {scanner : Scanner} (hb : Scanner.build depth signatures = .ok scanner)
    {buffers : List (Nat × List Byte)} (hw : ∀ b ∈ buffers, Holds data b.1 b.2) {r r' : Results}
    (h : buffers.foldlM (fun results b => scanBuffer scanner b.1 data.length b.2 results) r = .ok r') : Adds data signatures r r' := by
  induction buffers generalizing r with
  | nil => cases h; exact fun k => .inl rfl
  | cons b bs ih =>
    rw [List.foldlM_cons] at h
    obtain ⟨a, ha, h⟩ := R.bind_eq_ok.1 h
    exact (scanBuffer_adds hb (hw b (by simp)) ha).trans (ih (fun x hx => hw x (List.mem_cons_of_mem _ hx)) h)

/-- C47: every offset-bound signature that a scan reports, in whatever buffers the data is scanned, occurs in the data at its
place, and the offset that is reported with it is this place. -/
theorem C47_sound (depth : Nat) (signatures : List Signature) (scanner : Scanner) (hb : Scanner.build depth signatures = .ok scanner)
    (data : List Byte) (buffers : List (Nat × List Byte)) (hw : ∀ b ∈ buffers, Holds data b.1 b.2) (results : Results)
    (h : scanAll scanner data.length buffers = .ok results) (k : Nat) (s : Signature) (hk : results k = some s) (hs : s.type ≠ .unbound) :
    s ∈ signatures ∧ OccursAt data s k := by
  rcases scanAll_adds hb hw h k with h | ⟨u, h, h1, h2⟩
  · rw [hk] at h; cases h
  · rw [hk] at h; cases h
    exact ⟨h1, h2 hs⟩

theorem filled_holds (data : List Byte) (offset size : Nat) (h : offset + size ≤ data.length ∨ offset = 0) : Holds data offset (filled data offset size) := by
  have hlen : (filled data offset size).length = size := by unfold filled; simp
  refine ⟨by rw [hlen]; exact h, fun i hi hd => ?_⟩
  unfold filled
  rw [List.getElem?_append_left (by rw [hlen] at hi; simp; omega), List.getElem?_take_of_lt (by rw [hlen] at hi; exact hi), List.getElem?_drop]

theorem foldl_max_le (l : List Signature) (m n : Nat) (h : ∀ s ∈ l, s.offset + s.pattern.length ≤ n) (hm : m ≤ n) :
    l.foldl (fun m s => max (s.offset + s.pattern.length) m) m ≤ n := by
  induction l generalizing m with
  | nil => exact hm
  | cons s l ih => exact ih _ (fun u hu => h u (List.mem_cons_of_mem _ hu)) (by have := h s (by simp); simp; omega)

theorem le_foldl_max (l : List Signature) (m : Nat) : m ≤ l.foldl (fun m s => max (s.offset + s.pattern.length) m) m ∧
    ∀ s ∈ l, s.offset + s.pattern.length ≤ l.foldl (fun m s => max (s.offset + s.pattern.length) m) m := by
  induction l generalizing m with
  | nil => exact ⟨Nat.le_refl _, by simp⟩
  | cons s l ih =>
    obtain ⟨h1, h2⟩ := ih (max (s.offset + s.pattern.length) m)
    refine ⟨by rw [List.foldl_cons]; omega, fun u hu => ?_⟩
    rw [List.foldl_cons]
    rcases List.mem_cons.1 hu with rfl | hu
    · omega
    · exact h2 u hu

theorem stream_holds {depth : Nat} {signatures : List Signature} {scanner : Scanner} (hb : Scanner.build depth signatures = .ok scanner)
    {data : List Byte} (hf : ∀ s ∈ signatures, s.type = .boundToEnd → s.offset + s.pattern.length ≤ data.length) :
    ∃ start footer, scanStream scanner data = scanAll scanner data.length [(0, filled data 0 scanner.header.rangeEnd), (start, filled data start footer)] ∧
      Holds data 0 (filled data 0 scanner.header.rangeEnd) ∧ Holds data start (filled data start footer) ∧ start + footer = data.length ∧
      footer = scanner.footer.rangeEnd := by
  have hle : scanner.footer.rangeEnd ≤ data.length := by
    obtain ⟨-, ⟨-, h⟩ | ⟨-, h⟩⟩ := scanTree_parts (scanner_parts hb).2.1
    · rw [h]; exact Nat.zero_le _
    · rw [h]
      exact foldl_max_le _ 0 _ (fun s hs => by simp at hs; exact hf s hs.1 hs.2) (Nat.zero_le _)
  refine ⟨data.length - scanner.footer.rangeEnd, scanner.footer.rangeEnd, ?_, filled_holds _ _ _ (.inr rfl), filled_holds _ _ _ (.inl (by omega)), by omega, rfl⟩
  unfold scanStream
  simp only
  by_cases h : scanner.footer.rangeEnd < data.length
  · simp only [if_pos h]; rfl
  · simp only [if_neg h]
    have e : scanner.footer.rangeEnd = data.length := by omega
    rw [e]; simp

/-- C47 (format scanner): every signature that is reported for a stream occurs in the stream at its place. Missing: streams that are
smaller than the footer range, for which it does not hold (`C47_violated_small`). -/
theorem C47_stream_partial (depth : Nat) (signatures : List Signature) (scanner : Scanner) (hb : Scanner.build depth signatures = .ok scanner)
    (data : List Byte) (hf : ∀ s ∈ signatures, s.type = .boundToEnd → s.offset + s.pattern.length ≤ data.length) (results : Results)
    (h : scanStream scanner data = .ok results) (k : Nat) (s : Signature) (hk : results k = some s) (hs : s.type ≠ .unbound) :
    s ∈ signatures ∧ OccursAt data s k := by
  obtain ⟨start, footer, e, h1, h2, -, -⟩ := stream_holds hb hf
  rw [e] at h
  exact C47_sound depth signatures scanner hb data _ (by
    intro b hb
    simp only [List.mem_cons, List.not_mem_nil, or_false] at hb
    rcases hb with rfl | rfl
    · exact h1
    · exact h2) results h k s hk hs

/-- What is reported is one of the signatures. -/
theorem reported_mem {depth : Nat} {signatures : List Signature} {scanner : Scanner} (hb : Scanner.build depth signatures = .ok scanner)
    {data : List Byte} (hf : ∀ s ∈ signatures, s.type = .boundToEnd → s.offset + s.pattern.length ≤ data.length) {results : Results}
    (h : scanStream scanner data = .ok results) {k : Nat} {s : Signature} (hk : results k = some s) : s ∈ signatures := by
  obtain ⟨start, footer, e, h1, h2, -, -⟩ := stream_holds hb hf
  rw [e] at h
  rcases scanAll_adds hb (by
    intro b hb
    simp only [List.mem_cons, List.not_mem_nil, or_false] at hb
    rcases hb with rfl | rfl
    · exact h1
    · exact h2) h k with h | ⟨u, h, h1, -⟩
  · rw [hk] at h; cases h
  · rw [hk] at h; cases h
    exact h1

/-! ## C48 -/

private theorem occurs_byte {data : List Byte} {s : Signature} {k i : Nat} (h : OccursAt data s k) (hi : i < s.pattern.length) : data[k + i]? = s.pattern[i]? :=
  h.2.1 i hi

/-- A signature that occurs in the data is matched in a buffer that has all of it. -/
private theorem scan_occurring {data : List Byte} {s : Signature} {dataOffset bufferOffset k : Nat} {buffer : List Byte} (hs : s.type ≠ .unbound)
    (hsize : data.length < 2 ^ 64) (hw : Holds data dataOffset buffer) (ho : OccursAt data s k) (hp : s.position dataOffset data.length = .ok k)
    (h1 : dataOffset ≤ k) (h2 : k - dataOffset + s.pattern.length ≤ buffer.length) : s.scan dataOffset data.length buffer bufferOffset = .ok true := by
  have hle := ho.1
  unfold Signature.scan
  rw [hp, R.ok_bind, if_neg (by omega)]
  simp only [if_neg hs]
  rw [R.addU_ok (by omega), R.ok_bind, if_neg (by omega), R.slice_ok (by omega) h2, R.ok_bind, if_neg]
  · simp [hs]; omega
  · rw [ne_eq, not_not]
    refine List.ext_getElem? fun i => ?_
    by_cases hi : i < s.pattern.length
    · rw [List.getElem?_take_of_lt (by omega), List.getElem?_drop, hw.2 _ (by omega) (by omega), ← ho.2.1 i hi]
      congr 1; omega
    · rw [List.getElem?_eq_none (by simp; omega), List.getElem?_eq_none (by omega)]

/-- The scan with a tree reports an occurring signature of the tree, if it is the only one. -/
private theorem scanWith_reports {data : List Byte} {signatures : List Signature} {depth : Nat} {tree : ScanTree} {type : PatternType}
    (hb : ScanTree.build depth type signatures = .ok tree) (htype : type ≠ .unbound) {s : Signature} (hs : s ∈ signatures) (hst : s.type = type)
    (hpat : s.pattern ≠ []) (hsize : data.length < 2 ^ 64) {k dataOffset : Nat} (ho : OccursAt data s k) (hp : s.position dataOffset data.length = .ok k)
    (hd : ∀ u ∈ signatures, u.type = type → u.pattern = s.pattern → u = s)
    (honly : ∀ u ∈ signatures, u.type = type → ∀ k, OccursAt data u k → u = s)
    {buffer : List Byte} (hw : Holds data dataOffset buffer) (h1 : dataOffset ≤ k) (h2 : k - dataOffset + s.pattern.length ≤ buffer.length)
    {bufferOffset : Nat} (hoff : bufferOffset + place tree.rangeEnd s = k - dataOffset) {r r' : Results} {rounds : Nat}
    (h : scanWith tree dataOffset data.length buffer rounds bufferOffset r = .ok r') : r' k = some s := by
  have hpos : 0 < s.pattern.length := List.length_pos_iff.2 hpat
  have hle := ho.1
  have hub : s.type ≠ .unbound := by rw [hst]; exact htype
  cases rounds with
  | zero => cases h
  | succ rounds =>
  obtain ⟨e, ⟨he, -⟩ | ⟨hbuild, -⟩⟩ := scanTree_parts hb
  · exact absurd hst (by have := List.filter_eq_nil_iff.1 he s hs; simpa using this)
  rw [scanWith, if_pos (by omega)] at h
  obtain ⟨found, hf, h⟩ := R.bind_eq_ok.1 h
  obtain ⟨⟨mid, skip⟩, hr, h⟩ := R.bind_eq_ok.1 h
  simp only at h
  rw [if_pos (by rw [e]; exact htype)] at h
  cases h
  cases found with
  | none =>
    refine absurd hf (build_finds (s := s) (by simpa using ⟨hs, hst⟩) ?_ (by omega) ?_ (scan_occurring hub hsize hw ho hp h1 h2) hbuild)
    · intro u hu hp; simp at hu; exact hd u hu.1 hu.2 hp
    · intro i hi
      unfold byteAt
      rw [if_pos (by omega), hw.2 _ (by omega) (by omega), ← ho.2.1 i hi]
      congr 1; omega
  | some u =>
    obtain ⟨⟨hu, hut⟩, hscan⟩ := tree_found (leaves_of hb) hf
    obtain ⟨p, hpu, hv⟩ := R.bind_eq_ok.1 hr
    rw [e] at hut
    have hus : u = s := honly u hu hut p (scan_occurs (by rw [hut]; exact htype) hw hscan hpu)
    subst hus
    rw [hp] at hpu
    cases hpu
    cases hv
    exact if_pos rfl

private theorem Adds.keeps {data : List Byte} {signatures : List Signature} {a b : Results} (h : Adds data signatures a b) {k : Nat} {s : Signature} (ha : a k = some s)
    (hother : ∀ u, Sound data signatures k u → u = s) : b k = some s := by
  rcases h k with h | ⟨u, h, hu⟩
  · rw [h, ha]
  · rw [h, hother u hu]

private theorem sound_only {data : List Byte} {signatures : List Signature} {s : Signature} {type other : PatternType} {k : Nat}
    (hcover : ∀ t : PatternType, t = type ∨ t = other ∨ t = .unbound)
    (honly : ∀ u ∈ signatures, u.type = type → ∀ k, OccursAt data u k → u = s)
    (hother : ∀ u ∈ signatures, u.type = other → ¬ OccursAt data u k) (hunbound : ∀ u ∈ signatures, u.type ≠ .unbound) :
    ∀ u, Sound data signatures k u → u = s := by
  rintro u ⟨hu, hocc⟩
  have hocc := hocc (hunbound u hu)
  rcases hcover u.type with h | h | h
  · exact honly u hu h _ hocc
  · exact absurd hocc (hother u hu h)
  · exact absurd h (hunbound u hu)

/-- If the scan of one of the buffers reports a signature, so do the scans of all. -/
private theorem scanAll_keeps {data : List Byte} {signatures : List Signature} {depth : Nat} {scanner : Scanner} (hb : Scanner.build depth signatures = .ok scanner)
    {buffers : List (Nat × List Byte)} (hw : ∀ b ∈ buffers, Holds data b.1 b.2) {k : Nat} {s : Signature} (hother : ∀ u, Sound data signatures k u → u = s)
    {b : Nat × List Byte} (hmem : b ∈ buffers) (hone : ∀ r r', scanBuffer scanner b.1 data.length b.2 r = .ok r' → r' k = some s) {results : Results}
    (h : scanAll scanner data.length buffers = .ok results) : results k = some s := by
  obtain ⟨l1, l2, rfl⟩ := List.append_of_mem hmem
  unfold scanAll at h
  rw [List.foldlM_append] at h
  obtain ⟨r, -, h⟩ := R.bind_eq_ok.1 h
  rw [List.foldlM_cons] at h
  obtain ⟨a, ha, h⟩ := R.bind_eq_ok.1 h
  exact (scanAll_adds hb (fun x hx => hw x (by simp [hx])) h).keeps (hone r a ha) hother

/-- C48: if a header signature is the only header signature that occurs in the data, then a scan of the data in buffers of which one
starts at offset 0 and has all of the signature reports it. Missing: signatures that share their pattern with another header
signature (`C48_violated_mbr`), data of which the signature is not in the first buffer (`C48_violated_second_buffer`) and a
footer signature that occurs at the very same place, which replaces the header signature in the results. -/
theorem C48_header_partial (depth : Nat) (signatures : List Signature) (scanner : Scanner) (hb : Scanner.build depth signatures = .ok scanner)
    (data : List Byte) (hsize : data.length < 2 ^ 64) (s : Signature) (hs : s ∈ signatures) (hst : s.type = .boundToStart) (hpat : s.pattern ≠ [])
    (ho : OccursAt data s s.offset)
    (honly : ∀ u ∈ signatures, u.type = .boundToStart → ∀ k, OccursAt data u k → u = s)
    (hd : ∀ u ∈ signatures, u.type = .boundToStart → u.pattern = s.pattern → u = s)
    (hfooter : ∀ u ∈ signatures, u.type = .boundToEnd → ¬ OccursAt data u s.offset) (hunbound : ∀ u ∈ signatures, u.type ≠ .unbound)
    (buffers : List (Nat × List Byte)) (hw : ∀ b ∈ buffers, Holds data b.1 b.2)
    (hfirst : ∃ b ∈ buffers, b.1 = 0 ∧ s.offset + s.pattern.length ≤ b.2.length) (results : Results)
    (h : scanAll scanner data.length buffers = .ok results) : results s.offset = some s := by
  have hpos : 0 < s.pattern.length := List.length_pos_iff.2 hpat
  obtain ⟨⟨o, buffer⟩, hmem, rfl, hlen⟩ := hfirst
  simp only at hlen
  have hother := sound_only (s := s) (by intro t; cases t <;> simp) honly hfooter hunbound
  refine scanAll_keeps hb hw hother hmem (fun r r' hr => ?_) h
  have hh := hw _ hmem
  obtain ⟨a, b, h1, h2, h3⟩ := scanBuffer_parts (fun he => by have := congrArg List.length he; simp only [List.length_nil] at this; omega) hr
  have hrange : s.offset + s.pattern.length ≤ scanner.header.rangeEnd := by
    obtain ⟨-, ⟨he, -⟩ | ⟨-, he⟩⟩ := scanTree_parts (scanner_parts hb).1
    · exact absurd hst (by have := List.filter_eq_nil_iff.1 he s hs; simpa using this)
    · rw [he]; exact (le_foldl_max _ 0).2 s (by simpa using ⟨hs, hst⟩)
  unfold scanHeader at h1
  rw [if_pos (by simp only; omega)] at h1
  have ha := scanWith_reports (scanner_parts hb).1 (by simp) hs hst hpat hsize ho (by unfold Signature.position; rw [hst]) hd honly hh (Nat.zero_le _)
    (by simpa using hlen) (by unfold place; rw [hst]; simp) h1
  exact (((scanFooter_adds hb hh h2).trans (scanUnbound_adds hb hh h3)).keeps ha hother)

/-- C48 (footers): the same for footer signatures and a buffer that starts before the footer range. -/
theorem C48_footer_partial (depth : Nat) (signatures : List Signature) (scanner : Scanner) (hb : Scanner.build depth signatures = .ok scanner)
    (data : List Byte) (hsize : data.length < 2 ^ 64) (s : Signature) (hs : s ∈ signatures) (hst : s.type = .boundToEnd) (hpat : s.pattern ≠ [])
    (k : Nat) (ho : OccursAt data s k)
    (honly : ∀ u ∈ signatures, u.type = .boundToEnd → ∀ k, OccursAt data u k → u = s)
    (hd : ∀ u ∈ signatures, u.type = .boundToEnd → u.pattern = s.pattern → u = s)
    (hheader : ∀ u ∈ signatures, u.type = .boundToStart → ¬ OccursAt data u k) (hunbound : ∀ u ∈ signatures, u.type ≠ .unbound)
    (buffers : List (Nat × List Byte)) (hw : ∀ b ∈ buffers, Holds data b.1 b.2)
    (hlast : ∃ b ∈ buffers, b.1 + b.2.length = data.length ∧ ∀ u ∈ signatures, u.type = .boundToEnd → b.1 + (u.offset + u.pattern.length) ≤ data.length)
    (results : Results) (h : scanAll scanner data.length buffers = .ok results) : results k = some s := by
  have hpos : 0 < s.pattern.length := List.length_pos_iff.2 hpat
  have hk : k + s.offset = data.length := by have := ho.2.2; rw [hst] at this; exact this
  have hle := ho.1
  obtain ⟨⟨o, buffer⟩, hmem, hlen, hstart⟩ := hlast
  simp only at hlen hstart
  have hother := sound_only (s := s) (type := .boundToEnd) (other := .boundToStart) (by intro t; cases t <;> simp) honly hheader hunbound
  refine scanAll_keeps hb hw hother hmem (fun r r' hr => ?_) h
  have hh := hw _ hmem
  have hso := hstart s hs hst
  obtain ⟨a, b, h1, h2, h3⟩ := scanBuffer_parts (fun he => by have := congrArg List.length he; simp only [List.length_nil] at this; omega) hr
  have hrange : o + scanner.footer.rangeEnd ≤ data.length ∧ s.offset + s.pattern.length ≤ scanner.footer.rangeEnd := by
    obtain ⟨-, ⟨he, -⟩ | ⟨-, he⟩⟩ := scanTree_parts (scanner_parts hb).2.1
    · exact absurd hst (by have := List.filter_eq_nil_iff.1 he s hs; simpa using this)
    · rw [he]
      have := foldl_max_le (signatures.filter fun s => decide (s.type = .boundToEnd)) 0 (data.length - o)
        (fun u hu => by simp at hu; have := hstart u hu.1 hu.2; omega) (Nat.zero_le _)
      exact ⟨by unfold largestEnd; omega, (le_foldl_max _ 0).2 s (by simpa using ⟨hs, hst⟩)⟩
  unfold scanFooter at h2
  simp only at h2
  rw [if_pos (by omega)] at h2
  have hb2 := scanWith_reports (scanner_parts hb).2.1 (by simp) hs hst hpat hsize ho
    (by unfold Signature.position; rw [hst]; show R.subU _ _ = _; rw [R.subU_ok (by omega)]; congr 1; omega) hd honly hh (by omega)
    (by simp only; omega) (by unfold place; rw [hst]; simp only; omega) h2
  exact (scanUnbound_adds hb hh h3).keeps hb2 hother

/-- C48 (format scanner): if a header signature is the only one that occurs in a stream, it is reported. -/
theorem C48_stream_partial (depth : Nat) (signatures : List Signature) (scanner : Scanner) (hb : Scanner.build depth signatures = .ok scanner)
    (data : List Byte) (hsize : data.length < 2 ^ 64) (s : Signature) (hs : s ∈ signatures) (hst : s.type = .boundToStart) (hpat : s.pattern ≠ [])
    (ho : OccursAt data s s.offset)
    (honly : ∀ u ∈ signatures, u.type = .boundToStart → ∀ k, OccursAt data u k → u = s)
    (hd : ∀ u ∈ signatures, u.type = .boundToStart → u.pattern = s.pattern → u = s)
    (hfooter : ∀ u ∈ signatures, u.type = .boundToEnd → ¬ OccursAt data u s.offset) (hunbound : ∀ u ∈ signatures, u.type ≠ .unbound)
    (hf : ∀ s ∈ signatures, s.type = .boundToEnd → s.offset + s.pattern.length ≤ data.length) (results : Results)
    (h : scanStream scanner data = .ok results) : results s.offset = some s := by
  obtain ⟨start, footer, e, h1, h2, -, -⟩ := stream_holds hb hf
  rw [e] at h
  refine C48_header_partial depth signatures scanner hb data hsize s hs hst hpat ho honly hd hfooter hunbound _ ?_ ?_ results h
  · intro b hb
    simp only [List.mem_cons, List.not_mem_nil, or_false] at hb
    rcases hb with rfl | rfl
    · exact h1
    · exact h2
  · refine ⟨_, List.mem_cons_self, rfl, ?_⟩
    have hlen : (filled data 0 scanner.header.rangeEnd).length = scanner.header.rangeEnd := by unfold filled; simp
    rw [hlen]
    obtain ⟨-, ⟨he, -⟩ | ⟨-, he⟩⟩ := scanTree_parts (scanner_parts hb).1
    · exact absurd hst (by have := List.filter_eq_nil_iff.1 he s hs; simpa using this)
    · rw [he]; exact (le_foldl_max _ 0).2 s (by simpa using ⟨hs, hst⟩)

/-- C48 (format scanner, footers): if a footer signature is the only one that occurs in a stream, it is reported. -/
theorem C48_stream_footer_partial (depth : Nat) (signatures : List Signature) (scanner : Scanner) (hb : Scanner.build depth signatures = .ok scanner)
    (data : List Byte) (hsize : data.length < 2 ^ 64) (s : Signature) (hs : s ∈ signatures) (hst : s.type = .boundToEnd) (hpat : s.pattern ≠ [])
    (k : Nat) (ho : OccursAt data s k)
    (honly : ∀ u ∈ signatures, u.type = .boundToEnd → ∀ k, OccursAt data u k → u = s)
    (hd : ∀ u ∈ signatures, u.type = .boundToEnd → u.pattern = s.pattern → u = s)
    (hheader : ∀ u ∈ signatures, u.type = .boundToStart → ¬ OccursAt data u k) (hunbound : ∀ u ∈ signatures, u.type ≠ .unbound)
    (hf : ∀ s ∈ signatures, s.type = .boundToEnd → s.offset + s.pattern.length ≤ data.length) (results : Results)
    (h : scanStream scanner data = .ok results) : results k = some s := by
  obtain ⟨start, footer, e, h1, h2, h3, h4⟩ := stream_holds hb hf
  rw [e] at h
  refine C48_footer_partial depth signatures scanner hb data hsize s hs hst hpat k ho honly hd hheader hunbound _ ?_ ?_ results h
  · intro b hb
    simp only [List.mem_cons, List.not_mem_nil, or_false] at hb
    rcases hb with rfl | rfl
    · exact h1
    · exact h2
  · have hlen : (filled data start footer).length = footer := by unfold filled; simp
    refine ⟨(start, filled data start footer), by simp, by simp only [hlen]; exact h3, fun u hu hut => ?_⟩
    obtain ⟨-, ⟨he, -⟩ | ⟨-, he⟩⟩ := scanTree_parts (scanner_parts hb).2.1
    · exact absurd hut (by have := List.filter_eq_nil_iff.1 he u hu; simpa using this)
    · have := (le_foldl_max (signatures.filter fun s => decide (s.type = .boundToEnd)) 0).2 u (by simpa using ⟨hu, hut⟩)
      unfold largestEnd at he
      simp only
      omega

/-! ## Concrete cases -/

instance (data : List Byte) (s : Signature) (k : Nat) : Decidable (OccursAt data s k) := by
  unfold OccursAt
  cases s.type <;> infer_instance

def built (r : R Scanner) : Bool := match r with | .ok _ => true | _ => false

/-- What the scan of a stream reports at an offset. -/
def reported (signatures : List Signature) (data : List Byte) (k : Nat) : R (Option Signature) := do
  let scanner ← Scanner.build 64 signatures
  let results ← scanStream scanner data
  return results k

theorem reported_eq {signatures : List Signature} {data : List Byte} {k : Nat} {o : Option Signature} (h : reported signatures data k = .ok o) :
    ∃ scanner results, Scanner.build 64 signatures = .ok scanner ∧ scanStream scanner data = .ok results ∧ results k = o := by
  obtain ⟨scanner, hs, h⟩ := R.bind_eq_ok.1 h
  obtain ⟨results, hr, h⟩ := R.bind_eq_ok.1 h
  exact ⟨scanner, results, hs, hr, by cases h; rfl⟩

/-- A QCOW 2 image, of which the first bytes are the signature. -/
private def qcowImage : List Byte := [0x51, 0x46, 0x49, 0xfb, 0, 0, 0, 2] ++ List.replicate 600 0

/-- The QCOW 2 image meets the hypotheses of `C48_stream_partial` for the formats of image_tool.rs:1034-1040. -/
example : ∃ signatures s, signatures = ewfSignatures ++ qcowSignatures ++ sparseimageSignatures ++ udifSignatures ++ vhdSignatures ++ vhdxSignatures ∧
    s ∈ signatures ∧ s.type = .boundToStart ∧ OccursAt qcowImage s s.offset ∧
    (∀ u ∈ signatures, u.type = .boundToStart → OccursAt qcowImage u u.offset → u = s) ∧
    (∀ u ∈ signatures, u.type = .boundToStart → u.pattern = s.pattern → u = s) ∧
    (∀ u ∈ signatures, u.type = .boundToEnd → ¬ OccursAt qcowImage u s.offset) ∧ (∀ u ∈ signatures, u.type ≠ .unbound) ∧
    (∀ s ∈ signatures, s.type = .boundToEnd → s.offset + s.pattern.length ≤ qcowImage.length) ∧
    ∃ scanner results, Scanner.build 64 signatures = .ok scanner ∧ scanStream scanner qcowImage = .ok results ∧ results 0 = some s :=
  ⟨_, ⟨"qcow2", .boundToStart, 0, [0x51, 0x46, 0x49, 0xfb, 0, 0, 0, 2]⟩, rfl, by decide, rfl, by decide +kernel, by decide +kernel, by decide +kernel, by decide +kernel,
    by decide +kernel, by decide +kernel, reported_eq (by decide +kernel)⟩

/-- A disk with sectors of 1024 bytes and a master boot record. -/
private def disk1024 : List Byte := List.replicate 1022 0 ++ [0x55, 0xaa]

/-- C48 does not hold for signatures that share their pattern with another: the tree for the four signatures of a master boot record
(vfs/scanner/scanner.rs:114) only has the first. A disk with one of the others is not reported. -/
theorem C48_violated_mbr : ∃ (s : Signature) (scanner : Scanner) (results : Results), s ∈ mbrSignatures ∧ OccursAt disk1024 s s.offset ∧
    (∀ u ∈ mbrSignatures, OccursAt disk1024 u u.offset → u = s) ∧
    Scanner.build 64 mbrSignatures = .ok scanner ∧ scanStream scanner disk1024 = .ok results ∧ results s.offset = none := by
  obtain ⟨scanner, results, h1, h2, h3⟩ := reported_eq (signatures := mbrSignatures) (data := disk1024) (k := 1022) (o := none) (by decide +kernel)
  exact ⟨⟨"mbr2", .boundToStart, 1022, [0x55, 0xaa]⟩, scanner, results, by decide, by decide +kernel, by decide +kernel, h1, h2, h3⟩

/-- A header signature at offset 8 that is in the second of the buffers of 6 and 4 bytes. -/
theorem C48_violated_second_buffer : ∃ (s : Signature) (data : List Byte) (scanner : Scanner) (results : Results), OccursAt data s s.offset ∧
    Scanner.build 64 [s] = .ok scanner ∧ scanAll scanner data.length [(0, data.take 6), (6, data.drop 6)] = .ok results ∧ results s.offset = none := by
  have h : (do
      let scanner ← Scanner.build 64 [⟨"s", .boundToStart, 8, [0x61, 0x62]⟩]
      let results ← scanAll scanner 10 [(0, List.replicate 6 0), (6, [0, 0, 0x61, 0x62])]
      return results 8) = R.ok none := by decide +kernel
  obtain ⟨scanner, hs, h⟩ := R.bind_eq_ok.1 h
  obtain ⟨results, hr, h⟩ := R.bind_eq_ok.1 h
  exact ⟨⟨"s", .boundToStart, 8, [0x61, 0x62]⟩, [0, 0, 0, 0, 0, 0, 0, 0, 0x61, 0x62], scanner, results, by decide +kernel, hs, hr, R.ok.inj h⟩

/-- Building the tree does not end for some signatures, here two header signatures at other offsets than 0 that have no byte value
in common and none of which is a common byte value: whatever the depth of the stack, it overflows. -/
theorem C48_build_overflows (depth : Nat) :
    Scanner.build depth [⟨"a", .boundToStart, 10, [0x80, 0x81]⟩, ⟨"b", .boundToStart, 100, [0x82, 0x83]⟩] = .panic := by
  have key : ∀ depth ignore, (∀ x ∈ ignore, x = 0) →
      Sigscan.build 102 depth ignore [⟨"a", .boundToStart, 10, [0x80, 0x81]⟩, ⟨"b", .boundToStart, 100, [0x82, 0x83]⟩] = .panic := by
    intro depth
    induction depth with
    | zero => intro ignore _; rfl
    | succ depth ih =>
      intro ignore h
      have hn : ∀ n, n ≠ 0 → ignore.contains n = false := fun n hn => by
        rw [List.contains_eq_mem, decide_eq_false_iff_not]; intro hm; exact hn (h n hm)
      have hfill : fill 102 ignore [⟨"a", .boundToStart, 10, [0x80, 0x81]⟩, ⟨"b", .boundToStart, 100, [0x82, 0x83]⟩] =
          fill 102 [] [⟨"a", .boundToStart, 10, [0x80, 0x81]⟩, ⟨"b", .boundToStart, 100, [0x82, 0x83]⟩] := by
        simp only [fill, List.flatMap_cons, List.flatMap_nil, place, List.zipIdx_cons, List.zipIdx_nil, List.map_cons, List.map_nil, List.filter_cons,
          List.filter_nil]
        rw [hn _ (by decide), hn _ (by decide), hn _ (by decide), hn _ (by decide)]
        rfl
      rw [Sigscan.build, hfill]
      have hm : mostSignificant [⟨"a", .boundToStart, 10, [0x80, 0x81]⟩, ⟨"b", .boundToStart, 100, [0x82, 0x83]⟩]
          (fill 102 [] [⟨"a", .boundToStart, 10, [0x80, 0x81]⟩, ⟨"b", .boundToStart, 100, [0x82, 0x83]⟩]) = some 0 := by decide +kernel
      rw [hm]
      simp only
      have hi := ih (ignore ++ [0]) (fun x hx => by
        rcases List.mem_append.1 hx with hx | hx
        · exact h x hx
        · simpa using hx)
      have hv : values (fill 102 [] [⟨"a", .boundToStart, 10, [0x80, 0x81]⟩, ⟨"b", .boundToStart, 100, [0x82, 0x83]⟩]) 0 = [] := by decide +kernel
      have hr : remaining [⟨"a", .boundToStart, 10, [0x80, 0x81]⟩, ⟨"b", .boundToStart, 100, [0x82, 0x83]⟩]
          (fill 102 [] [⟨"a", .boundToStart, 10, [0x80, 0x81]⟩, ⟨"b", .boundToStart, 100, [0x82, 0x83]⟩]) 0 =
          [⟨"a", .boundToStart, 10, [0x80, 0x81]⟩, ⟨"b", .boundToStart, 100, [0x82, 0x83]⟩] := by decide +kernel
      unfold buildNode
      simp only
      rw [hv, hr, List.mapM_nil]
      show (do
        let default ← Sigscan.build 102 depth (ignore ++ [0]) _
        _) = _
      rw [show ([⟨"a", .boundToStart, 10, [0x80, 0x81]⟩, ⟨"b", .boundToStart, 100, [0x82, 0x83]⟩] : List Signature) ++ [] =
        [⟨"a", .boundToStart, 10, [0x80, 0x81]⟩, ⟨"b", .boundToStart, 100, [0x82, 0x83]⟩] from rfl, hi]
      rfl
  have : ScanTree.build depth .boundToStart [⟨"a", .boundToStart, 10, [0x80, 0x81]⟩, ⟨"b", .boundToStart, 100, [0x82, 0x83]⟩] = .panic := by
    show (do let root ← Sigscan.build 102 depth [] [⟨"a", .boundToStart, 10, [0x80, 0x81]⟩, ⟨"b", .boundToStart, 100, [0x82, 0x83]⟩]; _) = _
    rw [key depth [] (by simp)]
    rfl
  unfold Scanner.build
  rw [this]
  rfl

/-- C47 does not hold for the format scanner and a stream that is smaller than the footer range: the data is placed at the end of the
second buffer, which is scanned as if it started at offset 0. Here the text that FAT-32 file systems have at offset 82 is at offset 66. -/
theorem C47_violated_small : ∃ (s : Signature) (data : List Byte) (scanner : Scanner) (results : Results),
    Scanner.build 64 (fatSignatures ++ udifSignatures) = .ok scanner ∧ scanStream scanner data = .ok results ∧ results s.offset = some s ∧
    ¬ OccursAt data s s.offset := by
  obtain ⟨scanner, results, h1, h2, h3⟩ := reported_eq (signatures := fatSignatures ++ udifSignatures)
    (data := List.replicate 66 0 ++ [0x46, 0x41, 0x54, 0x33, 0x32, 0x20, 0x20, 0x20] ++ List.replicate 426 0) (k := 82)
    (o := some ⟨"fat3", .boundToStart, 82, [0x46, 0x41, 0x54, 0x33, 0x32, 0x20, 0x20, 0x20]⟩) (by decide +kernel)
  exact ⟨⟨"fat3", .boundToStart, 82, [0x46, 0x41, 0x54, 0x33, 0x32, 0x20, 0x20, 0x20]⟩,
    List.replicate 66 0 ++ [0x46, 0x41, 0x54, 0x33, 0x32, 0x20, 0x20, 0x20] ++ List.replicate 426 0, scanner, results, h1, h2, h3, by decide +kernel⟩

/-- Scanning an empty stream for header signatures panics. -/
theorem C47_empty_panics : ∃ scanner, Scanner.build 64 mbrSignatures = .ok scanner ∧ scanStream scanner [] = .panic := by
  have h : (do
      let scanner ← Scanner.build 64 mbrSignatures
      let results ← scanStream scanner []
      return results 0) = R.panic := by decide +kernel
  rcases R.bind_eq_panic.1 h with h | ⟨scanner, hs, h⟩
  · exact absurd (congrArg built h) (by decide +kernel)
  · rcases R.bind_eq_panic.1 h with h | ⟨results, -, h⟩
    · exact ⟨scanner, hs, h⟩
    · cases h

end Keramics.Props
