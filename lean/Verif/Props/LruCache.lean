import Verif.Spec.LruCache

/-!
Property theorem: block cache (C12).
-/

namespace Keramics.Props
open Keramics Keramics.LruCache Keramics.Spec

variable {K V : Type} [DecidableEq K]

/-- The concrete cache holds the entries of the queue. -/
structure CacheRel (n : Nat) (c : Cache K V) (q : List (K × V)) : Prop where
  cap : c.numberOfEntries = n
  vals : ∀ k, c.values k = Fifo.get q k
  usage : c.usage = q.map Prod.fst
  nodup : (q.map Prod.fst).Nodup
  len : q.length ≤ n

theorem fifo_get_none {q : List (K × V)} {k : K} : Fifo.get q k = none ↔ k ∉ q.map Prod.fst := by
  simp only [Fifo.get, Option.map_eq_none_iff, List.find?_eq_none, List.mem_map, decide_eq_true_eq]
  constructor
  · rintro h ⟨e, he, rfl⟩; exact h e he rfl
  · intro h e he hk; exact h ⟨e, he, hk⟩

theorem fifo_get_append {q : List (K × V)} {k j : K} {v : V} (hk : Fifo.get q k = none) :
    Fifo.get (q ++ [(k, v)]) j = if j = k then some v else Fifo.get q j := by
  by_cases h : j = k
  · subst h
    have : q.find? (fun e => e.1 = j) = none := by simpa [Fifo.get] using hk
    simp [Fifo.get, List.find?_append, this]
  · have : ¬ k = j := fun e => h e.symm
    simp [Fifo.get, List.find?_append, h, this]

theorem cache_insert {n : Nat} (hn : 0 < n) {c : Cache K V} {q : List (K × V)}
    (h : CacheRel n c q) (k : K) (v : V) (hk : Fifo.get q k = none) :
    ∃ c', c.insert k v = .ok c' ∧ CacheRel n c' (Fifo.insert n q k v) := by
  unfold Cache.insert Fifo.insert
  have hul : c.usage.length = q.length := by rw [h.usage]; simp
  rw [hul, h.cap]
  by_cases hf : q.length = n
  · cases q with
    | nil => simp at hf; omega
    | cons e q' =>
      have hu : c.usage = e.1 :: q'.map Prod.fst := by rw [h.usage]; rfl
      simp only [hf, if_true, hu, R.ok_bind, R.pure_eq, List.tail_cons]
      refine ⟨_, rfl, ?_⟩
      have hnd : e.1 ∉ q'.map Prod.fst ∧ (q'.map Prod.fst).Nodup := by
        have := h.nodup; rw [List.map_cons, List.nodup_cons] at this; exact this
      have hk' : Fifo.get q' k = none := by
        rw [fifo_get_none] at hk ⊢
        exact fun hm => hk (List.mem_cons_of_mem _ hm)
      constructor
      · rfl
      · intro j
        simp only
        rw [fifo_get_append hk']
        by_cases hj : j = k
        · simp [hj]
        · simp only [hj, if_false]
          by_cases hje : j = e.1
          · simp only [hje, if_true]; exact (fifo_get_none.mpr hnd.1).symm
          · simp only [hje, if_false, h.vals j]
            have : ¬ e.1 = j := fun x => hje x.symm
            simp [Fifo.get, this]
      · simp
      · rw [List.map_append, List.nodup_append]
        refine ⟨hnd.2, by simp, ?_⟩
        intro a ha b hb
        simp only [List.map_cons, List.map_nil, List.mem_singleton] at hb
        subst hb
        rintro rfl
        exact fifo_get_none.mp hk' ha
      · simp only [List.length_cons] at hf
        simp; omega
  · simp only [hf, if_false, R.ok_bind, R.pure_eq]
    refine ⟨_, rfl, ?_⟩
    have hlen := h.len
    constructor
    · exact h.cap
    · intro j
      simp only
      rw [fifo_get_append hk, h.vals]
    · simp [h.usage]
    · rw [List.map_append, List.nodup_append]
      refine ⟨h.nodup, by simp, ?_⟩
      intro a ha b hb
      simp only [List.map_cons, List.map_nil, List.mem_singleton] at hb
      subst hb
      rintro rfl
      exact fifo_get_none.mp hk ha
    · simp; omega

theorem fifo_modify_fst (q : List (K × V)) (k : K) (f : V → V) :
    (Fifo.modify q k f).map Prod.fst = q.map Prod.fst := by
  simp only [Fifo.modify, List.map_map]
  apply List.map_congr_left
  intro e _
  simp only [Function.comp_apply]; split <;> rfl

theorem fifo_modify_get (q : List (K × V)) (k j : K) (f : V → V) :
    Fifo.get (Fifo.modify q k f) j = if j = k then (Fifo.get q k).map f else Fifo.get q j := by
  induction q with
  | nil => simp [Fifo.get, Fifo.modify]
  | cons e q ih =>
    by_cases he : e.1 = k
    · by_cases hj : j = k
      · subst hj; simp [Fifo.get, Fifo.modify, he]
      · have : ¬ k = j := fun x => hj x.symm
        simp only [Fifo.get, Fifo.modify, List.map_cons, he, if_true, List.find?_cons, hj,
          if_false] at ih ⊢
        simp only [this, decide_false]
        exact ih
    · by_cases hje : e.1 = j
      · subst hje; simp [Fifo.get, Fifo.modify, he]
      · simp only [Fifo.get, Fifo.modify, List.map_cons, he, if_false, List.find?_cons,
          hje, decide_false] at ih ⊢
        exact ih

/-- C12. From an empty cache of capacity `n > 0`, every sequence of lookups, value changes and
inserts of absent keys succeeds, every lookup returns what a queue of the `n` most recently inserted
entries holds, the final cache holds exactly the entries of that queue, at most `n` of them, each
key once. -/
theorem C12_cache (n : Nat) (hn : 0 < n) (ops : List (Op K V)) (habs : Fifo.insertsAbsent n [] ops) :
    ∃ c : Cache K V, (new n).run ops = .ok ((Fifo.run n [] ops).1, c) ∧
      (∀ k, c.get k = Fifo.get (Fifo.run n [] ops).2 k) ∧
      ((Fifo.run n [] ops).2.map Prod.fst).Nodup ∧ (Fifo.run n [] ops).2.length ≤ n := by
  suffices H : ∀ (ops : List (Op K V)) (c : Cache K V) (q : List (K × V)), CacheRel n c q →
      Fifo.insertsAbsent n q ops → ∃ c', c.run ops = .ok ((Fifo.run n q ops).1, c') ∧
        CacheRel n c' (Fifo.run n q ops).2 by
    obtain ⟨c, h1, h2⟩ := H ops (new n) [] ⟨rfl, by intro k; rfl, rfl, by simp, by simp⟩ habs
    exact ⟨c, h1, h2.vals, h2.nodup, h2.len⟩
  intro ops
  induction ops with
  | nil => intro c q h _; exact ⟨c, rfl, h⟩
  | cons op ops ih =>
    intro c q h habs
    have hstep : ∃ c', c.step op = .ok ((Fifo.step n q op).1, c') ∧
        CacheRel n c' (Fifo.step n q op).2 := by
      cases op with
      | insert k v =>
        obtain ⟨c', h1, h2⟩ := cache_insert hn h k v habs.1
        exact ⟨c', by simp [Cache.step, h1, Fifo.step], h2⟩
      | get k => exact ⟨c, by simp [Cache.step, Cache.get, Fifo.step, h.vals], h⟩
      | modify k f =>
        refine ⟨c.modify k f, rfl, h.cap, ?_, ?_, ?_, ?_⟩
        · intro j
          simp only [Cache.modify, Fifo.step, fifo_modify_get, h.vals]
        · simp only [Fifo.step, fifo_modify_fst]; exact h.usage
        · simp only [Fifo.step, fifo_modify_fst]; exact h.nodup
        · simp only [Fifo.step, Fifo.modify, List.length_map]; exact h.len
    obtain ⟨c', h1, h2⟩ := hstep
    obtain ⟨c'', h3, h4⟩ := ih c' _ h2 habs.2
    exact ⟨c'', by simp [Cache.run, h1, h3, Fifo.run], h4⟩

/-- The keys of consecutive inserts. -/
def insertsOf (es : List (K × V)) : List (Op K V) := es.map fun e => .insert e.1 e.2

/-- C12. After inserting any distinct keys, a lookup returns the value inserted under the key if it
is among the last `n`, and nothing otherwise. -/
theorem C12_most_recent (n : Nat) (hn : 0 < n) (es : List (K × V)) (hd : (es.map Prod.fst).Nodup) :
    ∃ c : Cache K V, ∃ outs, (new n).run (insertsOf es) = .ok (outs, c) ∧
      ∀ k, c.get k = Fifo.get (es.drop (es.length - n)) k := by
  have key : ∀ (es q : List (K × V)), q.length ≤ n → ((q ++ es).map Prod.fst).Nodup →
      Fifo.insertsAbsent n q (insertsOf es) ∧
      (Fifo.run n q (insertsOf es)).2 = (q ++ es).drop ((q ++ es).length - n) := by
    intro es
    induction es with
    | nil =>
      intro q hq _
      refine ⟨trivial, ?_⟩
      simp [insertsOf, Fifo.run, Nat.sub_eq_zero_of_le hq]
    | cons e es ih =>
      intro q hq hnd
      have hnd' : ((Fifo.insert n q e.1 e.2 ++ es).map Prod.fst).Nodup := by
        unfold Fifo.insert
        refine List.Nodup.sublist ?_ hnd
        rw [List.append_assoc]
        apply List.Sublist.map
        apply List.Sublist.append_right (l₂ := q)
        split
        · exact List.tail_sublist q
        · exact List.Sublist.refl _
      have hlen : (Fifo.insert n q e.1 e.2).length ≤ n := by
        unfold Fifo.insert; split <;> simp <;> omega
      obtain ⟨h1, h2⟩ := ih (Fifo.insert n q e.1 e.2) hlen hnd'
      refine ⟨⟨?_, h1⟩, ?_⟩
      · show Fifo.get q e.1 = none
        rw [fifo_get_none]
        intro hm
        rw [List.map_append, List.nodup_append] at hnd
        exact hnd.2.2 _ hm _ (by simp) rfl
      · show (Fifo.run n (Fifo.insert n q e.1 e.2) (insertsOf es)).2 = _
        rw [h2]
        unfold Fifo.insert
        by_cases hf : q.length = n
        · cases q with
          | nil => simp at hf; omega
          | cons x q' =>
            rw [if_pos hf]
            simp only [List.length_cons] at hf
            simp only [List.tail_cons, List.length_append, List.length_cons,
              List.append_assoc, List.cons_append, List.nil_append]
            have : q'.length + (es.length + 1) + 1 - n = (q'.length + (es.length + 1) - n) + 1 := by
              omega
            rw [this, List.drop_succ_cons]
        · simp [hf]
  have := key es [] (by simp) (by simpa using hd)
  obtain ⟨c, h1, h2, _⟩ := C12_cache n hn (insertsOf es) this.1
  refine ⟨c, _, h1, ?_⟩
  rw [this.2] at h2
  simpa using h2

/-- The hypotheses hold for a concrete history with an eviction. -/
example : Fifo.insertsAbsent (K := Nat) (V := Nat) 2 []
    [.insert 1 10, .insert 2 20, .get 1, .insert 3 30, .modify 3 (· + 1), .insert 1 11] := by
  simp [Fifo.insertsAbsent, Fifo.step, Fifo.insert, Fifo.get, Fifo.modify]

end Keramics.Props
