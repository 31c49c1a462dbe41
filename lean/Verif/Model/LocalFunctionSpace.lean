import Verif.Model.LeafOrdering
/-
Model of the local function space tree (dune/pdelab/gridfunctionspace/localfunctionspace.hh): computation
of the sizes and offsets of all nodes and of the DOF indices by `bind`.
-/
namespace Verif.Lfs
open LeafOrdering (Key)

/-- A DOF index (dune/pdelab/common/dofindex.hh:30-330): entity index (geometry type, index) and tree index.
The tree index is stored with its **back first**, i.e. `push_back` is `::`. -/
structure Dof where
  gt : Nat
  entity : Nat
  tree : List Nat
deriving Repr, DecidableEq, Inhabited

/-- ordering/utility.hh:66-76  `DefaultDOFIndexAccessor::store` (integral tree index): clear, set the entity
index, push the local key's index. -/
def Dof.store (k : Key) : Dof := ⟨k.gt, k.entity, [k.index]⟩

/-- dofindex.hh `treeIndex().push_back(i)`. Simplification: the capacity of the tree index is not modelled
(it is computed from the depth of the tree at compile time). Used for `pushRange`, localfunctionspace.hh:148-153. -/
def Dof.push (i : Nat) (d : Dof) : Dof := { d with tree := i :: d.tree }

/-- The local function space tree together with what `bind` reads for the element: for a leaf, whether the
entity set of the leaf contains the element, `maxLocalSize()` of the finite element map, the size of
the local basis, geometry type/index of the element itself and the local keys translated to the grid
(localfunctionspace.hh:616-654). -/
inductive Space where
  | leaf (inSet : Bool) (maxSize basisSize : Nat) (elem : Nat × Nat) (keys : List Key)
  | node (degree : Nat) (child : Nat → Space)

/-- The bound tree: `offset` and `n` of each node (localfunctionspace.hh:294-295). -/
inductive Bound where
  | leaf (offset n : Nat)
  | node (offset n degree : Nat) (child : Nat → Bound)

/-- The member `offset`, localfunctionspace.hh:294-295. -/
def Bound.offset : Bound → Nat
  | .leaf o _ => o
  | .node o _ _ _ => o

/-- localfunctionspace.hh:222-225  `size()`. -/
def Bound.n : Bound → Nat
  | .leaf _ n => n
  | .node _ n _ _ => n

/-- localfunctionspace.hh:252-255  `localIndex`. -/
def Bound.localIndex (b : Bound) (i : Nat) : Nat := b.offset + i

/-- localfunctionspace.hh:81-125  `ComputeSizeVisitor`; the second component is the running `offset` of the
visitor. Children are visited in order (typetree's `applyToTree`). -/
def computeSizes (fast : Bool) : Space → Nat → Bound × Nat
  | .leaf inSet maxSize basisSize _ _, off =>
    let n := if !inSet then 0 else if fast then maxSize else basisSize
    (.leaf off n, off + n)
  | .node k child, off =>
    let r := (List.range k).foldl
      (fun (acc : (Nat → Bound) × Nat) i =>
        let c := computeSizes fast (child i) acc.2
        (fun j => if j = i then c.1 else acc.1 j, c.2))
      (fun _ => .leaf 0 0, off)
    (.node off (r.2 - off) k r.1, r.2)

/-- Write one element of the DOF index container; `none`: past the end. Used for `storeKeys`, localfunctionspace.hh:628-653. -/
def write (a : List Dof) (i : Nat) (d : Dof) : Option (List Dof) :=
  if i < a.length then some (a.set i d) else none

/-- localfunctionspace.hh:628-653  the loop over the local coefficients, `it` starting at `pos`. -/
def storeKeys (a : List Dof) (pos : Nat) : List Key → Option (List Dof)
  | [] => some a
  | k :: ks => (write a pos (Dof.store k)).bind fun a => storeKeys a (pos + 1) ks

/-- localfunctionspace.hh:616-654  `dofIndices`. -/
def leafDofIndices (fast inSet : Bool) (elem : Nat × Nat) (keys : List Key) (off : Nat) (a : List Dof) :
    Option (List Dof) :=
  if !inSet then some a
  else if fast then write a off (Dof.store ⟨elem.1, elem.2, 0⟩)
  else storeKeys a off keys

/-- localfunctionspace.hh:148-153  the loop of `afterChild`, over `i < cnt` (from `pos` on). -/
def pushRange (a : List Dof) (pos childIndex : Nat) : Nat → Option (List Dof)
  | 0 => some a
  | cnt + 1 =>
    match a[pos]? with
    | none => none
    | some d => pushRange (a.set pos (d.push childIndex)) (pos + 1) childIndex cnt

/-- localfunctionspace.hh:128-161  `FillIndicesVisitor`. -/
def fillIndices (fast : Bool) : Space → Bound → List Dof → Option (List Dof)
  | .leaf inSet _ _ elem keys, b, a => leafDofIndices fast inSet elem keys b.offset a
  | .node k child, b, a =>
    match b with
    | .leaf _ _ => none
    | .node _ _ _ bchild =>
      (List.range k).foldl
        (fun (acc : Option (List Dof)) i =>
          acc.bind fun a => (fillIndices fast (child i) (bchild i) a).bind fun a =>
            if fast then some a else pushRange a (bchild i).offset i (bchild i).n)
        (some a)

/-- localfunctionspace.hh:349-366  `bind` on the root node; `a` is the DOF index container with whatever the
previous `bind` left in it. The result is the bound tree and the new container. -/
def bindTo (fast : Bool) (s : Space) (a : List Dof) : Option (Bound × List Dof) :=
  let b := (computeSizes fast s 0).1
  (fillIndices fast s b a).map fun a => (b, a)

/-- localfunctionspace.hh:286-291 `setup`: the container gets the length `ordering().maxLocalSize()`. -/
def setup (maxLocalSize : Nat) : List Dof := List.replicate maxLocalSize default

/-- localfunctionspace.hh:261-264  `dofIndex(i)` of a node. -/
def dofIndex (a : List Dof) (b : Bound) (i : Nat) : Option Dof := a[b.offset + i]?

/-- localfunctionspace.hh:240-243  `localVectorSize()`. -/
def localVectorSize (a : List Dof) : Nat := a.length

/-- The node at a path (root to leaf). Not part of the code: access through `child(i)`. Source: the trees of localfunctionspace.hh:294-295. -/
def Space.at? : Space → List Nat → Option Space
  | s, [] => some s
  | .leaf .., _ :: _ => none
  | .node k child, i :: p => if i < k then (child i).at? p else none

/-- The node at a path, as for spaces: the trees of localfunctionspace.hh:294-295. -/
def Bound.at? : Bound → List Nat → Option Bound
  | b, [] => some b
  | .leaf .., _ :: _ => none
  | .node _ _ k child, i :: p => if i < k then (child i).at? p else none

end Verif.Lfs
