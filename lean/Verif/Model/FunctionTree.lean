import Mathlib.Data.List.Basic
/-
Model of trees of grid functions, the time of their leaves, and local function trees.

Source: /repo/dune/pdelab/common/function.hh, function/callableadapter.hh, function/localfunction.hh, function/localfunctionhelper.hh,
function/oldinterfaceadapter.hh.

Simplifications: leaf functions are user-written; the model keeps which one it is (`fn`) and where its time is stored (`cell`): in the object itself,
or in a parameter object it refers to. The nodes come from dune-typetree: children are held by shared pointers, so that a node constructed from
references refers to the given objects, the constructor with one argument makes k copies of it, and a copy of an inner node refers to the children
of the original. Children are not replaced after the construction. Destruction is not modelled: objects live as long as they are used. All leaves have a method `setTime`
(otherwise `setTime` of the tree does not compile).
-/
namespace Verif.FunctionTree

/-- A tree of functions; a leaf is the number of a leaf object. Used for `Tree.leaves`, localfunction.hh:157-182. -/
inductive Tree where
  | leaf (object : Nat)
  | node (children : List Tree)

/-- The node a path leads to (`TypeTree::child`). Used for `step`, function/callableadapter.hh:193-262. -/
def Tree.at? : Tree → List Nat → Option Tree
  | t, [] => some t
  | .leaf _, _ :: _ => none
  | .node cs, c :: p =>
    match cs[c]? with
    | none => none
    | some t => t.at? p

mutual

/-- `TypeTree::applyToTree` with `DynamicTraversal`: the leaves in the order in which a visitor is called for them.
Source: the traversals in localfunction.hh:157-182. -/
def Tree.leaves : Tree → List Nat
  | .leaf i => [i]
  | .node cs => leavesOfList cs

/-- The leaves of the children of a node. Source: the traversals in localfunction.hh:157-182. -/
def leavesOfList : List Tree → List Nat
  | [] => []
  | t :: ts => t.leaves ++ leavesOfList ts

end

/-- A leaf object: the user-written function, where its time is stored, and whether that is a member of the object
(otherwise it is an adapter with a reference `p` to a parameter object, callableadapter.hh:193-262). -/
structure LeafObject where
  fn : Nat
  cell : Nat
  own : Bool
  deriving DecidableEq

/-- A local function tree; a leaf has a pointer to the leaf object of the function and the element (oldinterfaceadapter.hh:81-82), `none` if there is
none so far. -/
inductive LocalTree (E : Type) where
  | leaf (object : Nat) (element : Option E)
  | node (children : List (LocalTree E))

/-- The node a path leads to. Used for `step`, function/callableadapter.hh:193-262. -/
def LocalTree.at? {E : Type} : LocalTree E → List Nat → Option (LocalTree E)
  | t, [] => some t
  | .leaf _ _, _ :: _ => none
  | .node cs, c :: p =>
    match cs[c]? with
    | none => none
    | some t => t.at? p

mutual

/-- localfunction.hh:157-182  `makeLocalFunctionTree` for grid function trees: each leaf becomes a `LocalGridViewFunctionAdapter` without an element
(oldinterfaceadapter.hh:72-78). -/
def toLocal (E : Type) : Tree → LocalTree E
  | .leaf i => .leaf i none
  | .node cs => .node (toLocalList E cs)

/-- The children of a node. Used for `toLocal`, localfunction.hh:157-182. -/
def toLocalList (E : Type) : List Tree → List (LocalTree E)
  | [] => []
  | t :: ts => toLocal E t :: toLocalList E ts

end

mutual

/-- localfunction.hh:32-36 and 85-89, localfunctionhelper.hh:14-25, oldinterfaceadapter.hh:45-48  `bind`: each leaf gets the element. -/
def LocalTree.bind {E : Type} (e : E) : LocalTree E → LocalTree E
  | .leaf i _ => .leaf i (some e)
  | .node cs => .node (bindList e cs)

/-- The children of a node. Used for `LocalTree.bind`, localfunction.hh:32-36 and 85-89. -/
def bindList {E : Type} (e : E) : List (LocalTree E) → List (LocalTree E)
  | [] => []
  | t :: ts => t.bind e :: bindList e ts

end

mutual

/-- localfunction.hh:38-41 and 91-94, localfunctionhelper.hh:27-35, oldinterfaceadapter.hh:50-51  `unbind`: it does nothing for each leaf. -/
def LocalTree.unbind {E : Type} : LocalTree E → LocalTree E
  | .leaf i e => .leaf i e
  | .node cs => .node (unbindList cs)

/-- The children of a node. Used for `LocalTree.unbind`, localfunction.hh:38-41 and 91-94. -/
def unbindList {E : Type} : List (LocalTree E) → List (LocalTree E)
  | [] => []
  | t :: ts => t.unbind :: unbindList ts

end

/-- Apply a method to the node a path leads to. Source: the access by `child` to nodes of localfunction.hh:32-94. -/
def LocalTree.modify {E : Type} (f : LocalTree E → LocalTree E) : LocalTree E → List Nat → Option (LocalTree E)
  | t, [] => some (f t)
  | .leaf _ _, _ :: _ => none
  | .node cs, c :: p =>
    match cs[c]? with
    | none => none
    | some t =>
      match t.modify f p with
      | none => none
      | some t' => some (.node (cs.set c t'))

/-- The objects of a program: the places where times are stored, the leaf functions, the function trees, and the local function trees.
Used for `step`, function/callableadapter.hh:193-262. -/
structure State (T E : Type) where
  cells : List T
  objects : List LeafObject
  trees : List Tree
  locals : List (LocalTree E)

/-- What a program can do. Trees are numbered in the order of their construction.
Source: the operations of function/callableadapter.hh:193-262, function/localfunction.hh:32-94, 157-182. -/
inductive Op (T E : Type) where
  /-- Construct a parameter object. -/
  | newParameter (t : T)
  /-- Construct a leaf function with its own time. -/
  | newLeaf (fn : Nat) (t : T)
  /-- callableadapter.hh:286-351  `makeInstationaryGridFunctionFromCallable`. -/
  | newAdapter (fn cell : Nat)
  /-- function.hh:397-398, 432-520, 555-562  an inner node with the given children. -/
  | newNode (children : List Nat)
  /-- function.hh:401-402  `PowerGridFunction(t)` with `k` children. -/
  | newPower (j k : Nat)
  /-- function.hh:384-387 and 566-569  `setTime` of a tree or of a part of it. -/
  | setTime (j : Nat) (path : List Nat) (t : T)
  /-- `setTime` of a parameter object. -/
  | setParameter (cell : Nat) (t : T)
  /-- localfunction.hh:175-182  `makeLocalFunctionTree`. -/
  | newLocal (j : Nat)
  /-- localfunction.hh:33 and 86  `bind` of a local tree or of a part of it. -/
  | bind (l : Nat) (path : List Nat) (e : E)
  /-- localfunction.hh:38 and 91  `unbind` of a local tree or of a part of it. -/
  | unbind (l : Nat) (path : List Nat)

variable {T E : Type}

/-- function.hh:350-354 for a user-written leaf (`setTime` stores the time), or callableadapter.hh:224-226 and 259-261 (`p.setTime`). -/
def setLeafTime (objects : List LeafObject) (t : T) (cells : List T) (i : Nat) : List T :=
  match objects[i]? with
  | none => cells
  | some o => cells.set o.cell t

/-- The copies of a leaf object: a copy of a function with its own time has a copy of the time, and a copy of an adapter refers to the same parameter
object. The result are the new cells and objects; `n` is the number of cells there are.
Source: the implicit copy constructors of the classes in function/callableadapter.hh:193-262. -/
def copies (o : LeafObject) (t : T) : Nat → Nat → List T × List LeafObject
  | _, 0 => ([], [])
  | n, k + 1 =>
    if o.own then
      let r := copies o t (n + 1) k
      (t :: r.1, ⟨o.fn, n, true⟩ :: r.2)
    else
      let r := copies o t n k
      (r.1, o :: r.2)

/-- One operation; `none`: an object is used that does not exist.
Source: the operations of function/callableadapter.hh:193-262, function/localfunction.hh:32-94, 157-182. -/
def step (s : State T E) : Op T E → Option (State T E)
  | .newParameter t => some { s with cells := s.cells ++ [t] }
  | .newLeaf fn t =>
    some ⟨s.cells ++ [t], s.objects ++ [⟨fn, s.cells.length, true⟩], s.trees ++ [.leaf s.objects.length], s.locals⟩
  | .newAdapter fn cell =>
    if cell < s.cells.length then
      some { s with objects := s.objects ++ [⟨fn, cell, false⟩], trees := s.trees ++ [.leaf s.objects.length] }
    else none
  | .newNode js =>
    match js.mapM (fun j => s.trees[j]?) with
    | none => none
    | some ts => some { s with trees := s.trees ++ [.node ts] }
  | .newPower j k =>
    match s.trees[j]? with
    | none => none
    | some (.node cs) => some { s with trees := s.trees ++ [.node (List.replicate k (.node cs))] }
    | some (.leaf i) =>
      match s.objects[i]? with
      | none => none
      | some o =>
        match s.cells[o.cell]? with
        | none => none
        | some t =>
          let r := copies o t s.cells.length k
          some ⟨s.cells ++ r.1, s.objects ++ r.2,
            s.trees ++ [.node ((List.range k).map fun a => .leaf (s.objects.length + a))], s.locals⟩
  | .setTime j path t =>
    match s.trees[j]? with
    | none => none
    | some tree =>
      match tree.at? path with
      | none => none
      | some sub => some { s with cells := sub.leaves.foldl (setLeafTime s.objects t) s.cells }
  | .setParameter cell t => if cell < s.cells.length then some { s with cells := s.cells.set cell t } else none
  | .newLocal j =>
    match s.trees[j]? with
    | none => none
    | some tree => some { s with locals := s.locals ++ [toLocal E tree] }
  | .bind l path e =>
    match s.locals[l]? with
    | none => none
    | some tree =>
      match tree.modify (LocalTree.bind e) path with
      | none => none
      | some tree' => some { s with locals := s.locals.set l tree' }
  | .unbind l path =>
    match s.locals[l]? with
    | none => none
    | some tree =>
      match tree.modify LocalTree.unbind path with
      | none => none
      | some tree' => some { s with locals := s.locals.set l tree' }

/-- No objects. Source: the state before the first constructor of function/callableadapter.hh:193-262. -/
def State.init : State T E := ⟨[], [], [], []⟩

/-- A program. Source: the operations of function/callableadapter.hh:193-262, function/localfunction.hh:32-94, 157-182. -/
def run : State T E → List (Op T E) → Option (State T E)
  | s, [] => some s
  | s, op :: ops =>
    match step s op with
    | none => none
    | some s' => run s' ops

/-- `evaluate` of a leaf object: the user-written function at its present time. Used for `evalTree`, function/callableadapter.hh:193-262. -/
def evalObject {X R : Type} (value : Nat → T → E → X → R) (s : State T E) (i : Nat) (e : E) (x : X) : Option R :=
  match s.objects[i]? with
  | none => none
  | some o =>
    match s.cells[o.cell]? with
    | none => none
    | some t => some (value o.fn t e x)

/-- `child(tree, path).evaluate(e, x, y)`; `none`: there is no leaf. Source: `evaluate` of the leaves, function/callableadapter.hh:193-262. -/
def evalTree {X R : Type} (value : Nat → T → E → X → R) (s : State T E) (j : Nat) (path : List Nat) (e : E) (x : X) : Option R :=
  match s.trees[j]? with
  | none => none
  | some tree =>
    match tree.at? path with
    | some (.leaf i) => evalObject value s i e x
    | _ => none

/-- oldinterfaceadapter.hh:53-58  `child(localTree, path)(x)`; `none`: there is no leaf, or it has no element. -/
def evalLocal {X R : Type} (value : Nat → T → E → X → R) (s : State T E) (l : Nat) (path : List Nat) (x : X) : Option R :=
  match s.locals[l]? with
  | none => none
  | some tree =>
    match tree.at? path with
    | some (.leaf i (some e)) => evalObject value s i e x
    | _ => none

end Verif.FunctionTree
