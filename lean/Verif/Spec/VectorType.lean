import Verif.Model.VectorType
import Verif.Model.GridViewOrdering
/-
What the container of the coefficients has to look like, for `Verif.Props.VectorType`.
-/
namespace Verif.VectorType

/-- The path leads from the root to a leaf space. -/
def Tree.IsLeaf : Tree → List Nat → Prop
  | .leaf _ _ _, p => p = []
  | .node _ _ _ _, [] => False
  | .node _ _ n child, c :: p => c < n ∧ (child c).IsLeaf p

/-- Number of nodes on the path with dynamic blocking. -/
def Tree.bcrsOn : Tree → List Nat → Nat
  | .leaf be _ _, _ => if be.blocking = .bcrs then 1 else 0
  | .node _ _ _ _, [] => 0
  | .node be _ _ child, c :: p => (child c).bcrsOn p + if be.blocking = .bcrs then 1 else 0

/-- Number of nodes on the path with static blocking. -/
def Tree.fixedOn : Tree → List Nat → Nat
  | .leaf be _ _, _ => if be.blocking = .fixed then 1 else 0
  | .node _ _ _ _, [] => 0
  | .node be _ _ child, c :: p => (child c).fixedOn p + if be.blocking = .fixed then 1 else 0

/-- Number of DOFs per entity of all leaf spaces together: as given by the user, or else as found in the finite element map. -/
def Tree.perEntity : Tree → Nat
  | .leaf be _ detected => if be.blockSize = 0 then detected else be.blockSize
  | .node _ _ n child => ((List.range n).map fun i => (child i).perEntity).sum

/-- `perEntity` of the part of the tree below (and with) the outermost node on the path with static blocking. -/
def Tree.fixedBlock : Tree → List Nat → Option Nat
  | .leaf be c d, _ => if be.blocking = .fixed then some (Tree.leaf be c d).perEntity else none
  | .node _ _ _ _, [] => none
  | .node be c n child, i :: p => if be.blocking = .fixed then some (Tree.node be c n child).perEntity else (child i).fixedBlock p

/-- Dynamic blocking below a node with several children does not occur. -/
def Tree.SingleNesting : Tree → Prop
  | .leaf _ _ _ => True
  | .node _ _ n child => (∀ i, i < n → (child i).SingleNesting) ∧
      (2 ≤ n → ∀ i, i < n → ∀ p, (child i).IsLeaf p → (child i).bcrsOn p = 0)

/-- Chunked orderings are used with blocked backends only. -/
def Tree.ChunksBlocked : Tree → Prop
  | .leaf be chunked _ => chunked = true → be.blocking ≠ .none
  | .node be chunked n child => (chunked = true → be.blocking ≠ .none) ∧ ∀ i, i < n → (child i).ChunksBlocked

open Orderings in
/-- The tree of orderings is one that is made for the tree of spaces: lexicographic or interleaved nodes with the flag `blocked` of their space,
decorated as chunked where the tag says so, and possibly permuted; leaf orderings with indices of one entry, and one more if blocked. -/
def Ordered : OrdTree → Tree → Prop
  | .leaf _ table, .leaf be false _ => ∀ ci ∈ table, ci.length = if blocked be true false then 2 else 1
  | .lex b n child, .node be false m c => b = blocked be false false ∧ m = n ∧ ∀ i, i < n → Ordered (child i) (c i)
  | .inter b _ n child, .node be false m c => b = blocked be false false ∧ m = n ∧ ∀ i, i < n → Ordered (child i) (c i)
  | .chunked _ o, .leaf _ true d => Ordered o (.leaf ⟨.none, 0⟩ false d)
  | .chunked _ o, .node _ true n c => Ordered o (.node ⟨.none, 0⟩ false n c)
  | .permuted _ _ o, t => Ordered o t
  | _, _ => False

open GridViewOrdering in
/-- The tree of spaces is ordered entity-wise: the nodes have the flag `blocked` of their space, the leaves are not blocked. -/
def EntityWise : Space → Tree → Prop
  | .leaf _ _, .leaf be false _ => blocked be true false = false
  | .node b n child, .node be false m c => b = blocked be false false ∧ m = n ∧ ∀ i, i < n → EntityWise (child i) (c i)
  | _, _ => False

end Verif.VectorType
