import Verif.Model.LruCache

/-!
# Specification of the block cache

The cache is a queue of at most `n` entries, oldest first.
-/

namespace Keramics.Spec.Fifo
open Keramics.LruCache (Op)

variable {K V : Type} [DecidableEq K]

/-- Lookup in the queue. -/
def get (q : List (K × V)) (k : K) : Option V := (q.find? (fun e => e.1 = k)).map Prod.snd

/-- Inserting drops the oldest entry of a full queue. -/
def insert (n : Nat) (q : List (K × V)) (k : K) (v : V) : List (K × V) :=
  (if q.length = n then q.tail else q) ++ [(k, v)]

/-- Changing the value of an entry. -/
def modify (q : List (K × V)) (k : K) (f : V → V) : List (K × V) :=
  q.map fun e => if e.1 = k then (e.1, f e.2) else e

def step (n : Nat) (q : List (K × V)) : Op K V → Option V × List (K × V)
  | .insert k v => (none, insert n q k v)
  | .get k => (get q k, q)
  | .modify k f => (none, modify q k f)

def run (n : Nat) (q : List (K × V)) : List (Op K V) → List (Option V) × List (K × V)
  | [] => ([], q)
  | op :: ops =>
    let (o, q') := step n q op
    let (os, q'') := run n q' ops
    (o :: os, q'')

/-- Every insert is of a key that is absent at that moment (as all callers ensure). -/
def insertsAbsent (n : Nat) (q : List (K × V)) : List (Op K V) → Prop
  | [] => True
  | op :: ops =>
    (match op with | .insert k _ => get q k = none | _ => True) ∧ insertsAbsent n (step n q op).2 ops

end Keramics.Spec.Fifo
