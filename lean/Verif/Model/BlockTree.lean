import Verif.Base.R

/-!
Model of `keramics-formats/src/block_tree.rs` and `keramics-formats/src/block_tree_node.rs`.

A `Vec<Option<..>>` is a length and a function from the index; `None` for a node is `absent`. What an
insertion that returns an error has already changed is not modelled: the error is the end of the
history.
-/

namespace Keramics.BlockTree

/-- block_tree_node.rs:26-41 `BlockTreeNode` -/
inductive Node (α : Type) where
  | absent
  | branch (offset element length : Nat) (sub : Nat → Node α)
  | leaf (offset element length : Nat) (value : Nat → Option α)

/-- block_tree.rs:20-32 `BlockTree`; the root is `absent` when `root_node` is `None`. -/
structure Tree (α : Type) where
  dataSize : Nat
  perNode : Nat
  leafSize : Nat
  root : Node α

variable {α : Type}

/-- block_tree.rs:36-43 `new` -/
def new (dataSize perNode leafSize : Nat) : Tree α := ⟨dataSize, perNode, leafSize, .absent⟩

/-- block_tree.rs:50-52 and block_tree_node.rs:74-76: `while limit / e > elements_per_node { e *=
elements_per_node }`. A division by zero panics. The product is below `limit`, so it cannot overflow. -/
def grow (limit perNode : Nat) : Nat → Nat → R Nat
  | fuel, e =>
    if e = 0 then .panic
    else if limit / e > perNode then match fuel with
      | 0 => .panic
      | fuel + 1 => grow limit perNode fuel (e * perNode)
    else .ok e

/-- `a.div_ceil(b)` for `b > 0` -/
def divCeil (a b : Nat) : Nat := (a + b - 1) / b

/-- Replace the element at an index. -/
def update {β : Type} (f : Nat → β) (i : Nat) (b : β) : Nat → β := fun j => if j = i then b else f j

/-- block_tree_node.rs:115-120: the loop that stores the value in a leaf node. -/
def setValues (length : Nat) (v : α) : List Nat → (Nat → Option α) → R (Nat → Option α)
  | [], value => .ok value
  | i :: is, value => do
    R.check (i < length)
    R.require ((value i).isNone = true)
    setValues length v is (update value i (some v))

/-- block_tree_node.rs:85-91: the sub node, a new one if there is none. -/
def orFresh (node fresh : Node α) : Node α := match node with
  | .absent => fresh
  | node => node

/-- block_tree_node.rs:84-100: the loop over the sub nodes of a branch node; `step` is the insertion
into a sub node and `fresh` makes a new one. -/
def setNodes (length : Nat) (fresh : Nat → Node α) (step : Node α → R (Node α)) :
    List Nat → (Nat → Node α) → R (Nat → Node α)
  | [], sub => .ok sub
  | i :: is, sub => do
    R.check (i < length)
    let child ← step (orFresh (sub i) (fresh i))
    setNodes length fresh step is (update sub i child)

/-- block_tree_node.rs:56-123 `insert_value`. The fuel bounds the depth; the nodes of a branch have
smaller elements than the branch itself. -/
def insertNode (perNode leafSize offset size : Nat) (v : α) : Nat → Node α → R (Node α)
  | 0, _ => .panic
  | _ + 1, .absent => .panic
  | fuel + 1, .branch o e n sub => do
    let n := if n = 0 then perNode else n
    R.check (e ≠ 0)
    let number := divCeil size e
    let first := (← R.subU offset o) / e
    let se ← grow e perNode e leafSize
    let fresh := fun i => if se ≤ size then Node.leaf (o + i * e) se 0 fun _ => none
      else Node.branch (o + i * e) se 0 fun _ => .absent
    let sub ← setNodes n fresh (insertNode perNode leafSize offset size v fuel) (List.range' first number) sub
    pure (.branch o e n sub)
  | _ + 1, .leaf o e n value => do
    R.check (e ≠ 0)
    R.require (size % e = 0)
    let n := if n = 0 then perNode else n
    let number := size / e
    let first := (← R.subU offset o) / e
    let value ← setValues n v (List.range' first number) value
    pure (.leaf o e n value)

/-- block_tree.rs:49-53: the element size of the root node. -/
def rootElement (t : Tree α) : R Nat := do
  let product ← R.mulU 64 t.perNode t.leafSize
  if product > t.leafSize then grow t.dataSize t.perNode t.dataSize t.leafSize else pure t.leafSize

/-- block_tree.rs:46-72 `create_root_node` -/
def createRoot (t : Tree α) (size : Nat) : R (Node α) := do
  let e ← rootElement t
  R.check (e ≠ 0)
  let n := divCeil t.dataSize e
  pure (if e ≤ size then .leaf 0 e n fun _ => none else .branch 0 e n fun _ => .absent)

/-- block_tree.rs:119-121: the root node, created by the first insertion. -/
def ensureRoot (t : Tree α) (size : Nat) : R (Node α) := match t.root with
  | .absent => createRoot t size
  | node => .ok node

/-- block_tree.rs:98-130 `insert_value` -/
def insert (t : Tree α) (offset size : Nat) (v : α) : R (Tree α) := do
  let last ← R.addU 64 offset size
  R.require (last ≤ t.dataSize)
  R.check (t.leafSize ≠ 0)
  R.require (offset % t.leafSize = 0)
  R.require (size % t.leafSize = 0)
  let root ← ensureRoot t size
  let root ← insertNode t.perNode t.leafSize offset size v (t.dataSize + 1) root
  pure { t with root := root }

/-- block_tree.rs:79-94: from a node down to the value. -/
def getNode (offset : Nat) : Node α → R (Option α)
  | .absent => .ok none
  | .branch o e n sub => do
    R.check (e ≠ 0)
    let i := (← R.subU offset o) / e
    R.check (i < n)
    getNode offset (sub i)
  | .leaf o e n value => do
    R.check (e ≠ 0)
    let i := (← R.subU offset o) / e
    if i < n then pure (value i) else pure none

/-- block_tree.rs:75-95 `get_value` -/
def get (t : Tree α) (offset : Nat) : R (Option α) := getNode offset t.root

end Keramics.BlockTree
