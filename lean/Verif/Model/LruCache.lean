import Verif.Base.R

/-!
# Model: block cache, keramics-formats/src/lru_cache.rs
-/

namespace Keramics.LruCache

/-- `LruCache`, lru_cache.rs:31-40. The `HashMap` is a finite partial function, the `VecDeque` a
list with the front first. -/
structure Cache (K V : Type) where
  numberOfEntries : Nat
  values : K → Option V
  usage : List K

variable {K V : Type} [DecidableEq K]

/-- `LruCache::new`, lru_cache.rs:44-50. -/
def new (n : Nat) : Cache K V := ⟨n, fun _ => none, []⟩

/-- `LruCache::contains`, lru_cache.rs:53-55. -/
def Cache.contains (c : Cache K V) (k : K) : Bool := (c.values k).isSome

/-- `LruCache::get`, lru_cache.rs:58-63. -/
def Cache.get (c : Cache K V) (k : K) : Option V := c.values k

/-- `LruCache::get_mut` followed by a change of the value, lru_cache.rs:66-71. -/
def Cache.modify (c : Cache K V) (k : K) (f : V → V) : Cache K V :=
  { c with values := fun j => if j = k then (c.values k).map f else c.values j }

/-- `LruCache::insert`, lru_cache.rs:74-82. `unwrap` of an empty deque is a panic. -/
def Cache.insert (c : Cache K V) (k : K) (v : V) : R (Cache K V) := do
  let c ← if c.usage.length = c.numberOfEntries then
      match c.usage with
      | [] => .panic
      | l :: rest => .ok { c with usage := rest, values := fun j => if j = l then none else c.values j }
    else .ok c
  return { c with values := fun j => if j = k then some v else c.values j, usage := c.usage ++ [k] }

/-- A call on a cache. -/
inductive Op (K V : Type) where
  | insert (k : K) (v : V)
  | get (k : K)
  | modify (k : K) (f : V → V)

/-- One call; a lookup returns what it found, other calls return `none`. -/
def Cache.step (c : Cache K V) : Op K V → R (Option V × Cache K V)
  | .insert k v => do return (none, ← c.insert k v)
  | .get k => .ok (c.get k, c)
  | .modify k f => .ok (none, c.modify k f)

/-- A sequence of calls: their results and the final cache. -/
def Cache.run (c : Cache K V) : List (Op K V) → R (List (Option V) × Cache K V)
  | [] => .ok ([], c)
  | op :: ops => do
    let (o, c') ← c.step op
    let (os, c'') ← c'.run ops
    return (o :: os, c'')

end Keramics.LruCache
