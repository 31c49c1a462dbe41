import Verif.Model.Ordering
/-!
Specification for orderings: which DOFs a tree has, how many blocks, and what a sensible
tree is. Independent of `update`/`mapIndex`.
-/
namespace Verif.Orderings

/-- `(path, d)` is a DOF of the tree: the path leads to a leaf and `d` is a DOF of that leaf. -/
def OrdTree.IsDof : OrdTree → List Nat → Nat → Prop
  | .leaf _ table, [], d => d < table.length
  | .lex _ n child, c :: path, d => c < n ∧ (child c).IsDof path d
  | .inter _ _ n child, c :: path, d => c < n ∧ (child c).IsDof path d
  | .chunked _ child, path, d => child.IsDof path d
  | .permuted _ _ child, path, d => child.IsDof path d
  | _, _, _ => False

/-- Number of DOFs of the tree. -/
def OrdTree.dofs : OrdTree → Nat
  | .leaf _ table => table.length
  | .lex _ n child => ((List.range n).map fun i => (child i).dofs).sum
  | .inter _ _ n child => ((List.range n).map fun i => (child i).dofs).sum
  | .chunked _ child => child.dofs
  | .permuted _ _ child => child.dofs

/-- Number of top-level blocks of the tree. -/
def OrdTree.blocks : OrdTree → Nat
  | .leaf blocks _ => blocks
  | .lex blocked n child => if blocked then n else ((List.range n).map fun i => (child i).blocks).sum
  | .inter blocked sizes n child =>
    if blocked then ((List.range n).map fun i => (child i).blocks).sum / sizes.sum
    else ((List.range n).map fun i => (child i).blocks).sum
  | .chunked bs child => child.blocks / bs
  | .permuted _ _ child => child.blocks

/-- A well-formed tree:
* leaves map their DOFs to different container indices whose last entry is a valid block number;
* inner nodes have at least one child;
* interleaving: one positive block size per child and the same number `m` of blocks for all
  children ("balanced");
* chunking: the chunk size divides the number of blocks;
* permuting: the user's vector is empty or has the right length at the time of `update()`, and what
  is assigned afterwards is a permutation. -/
def OrdTree.Good : OrdTree → Prop
  | .leaf blocks table => table.Nodup ∧ ∀ ci ∈ table, ∃ b r, ci = b :: r ∧ b < blocks
  | .lex _ n child => 0 < n ∧ ∀ i, i < n → (child i).Good
  | .inter _ sizes n child => 0 < n ∧ sizes.length = n ∧
      (∃ m, ∀ i, i < n → ∃ s, sizes[i]? = some s ∧ 0 < s ∧ (child i).blocks = s * m) ∧
      ∀ i, i < n → (child i).Good
  | .chunked bs child => 0 < bs ∧ bs ∣ child.blocks ∧ child.Good
  | .permuted before after child => (before = [] ∨ before.length = child.blocks) ∧
      (∀ p, after = some p → p.Perm (List.range child.blocks)) ∧ child.Good

/-- A tree without any blocking: flat leaves and unblocked lexicographic/interleaved nodes. -/
def OrdTree.Flat : OrdTree → Prop
  | .leaf blocks table => table = (List.range blocks).map fun k => [k]
  | .lex blocked n child => blocked = false ∧ ∀ i, i < n → (child i).Flat
  | .inter blocked _ n child => blocked = false ∧ ∀ i, i < n → (child i).Flat
  | .chunked _ _ => False
  | .permuted _ _ child => child.Flat

/-- What the constructors and the user guarantee before anything is checked: leaves map their DOFs to
different container indices with valid block numbers, there is at least one child, merge sizes and
chunk sizes are positive, assigned permutations are permutations. Whether the sizes fit together is
left to `update()`. -/
def OrdTree.Plausible : OrdTree → Prop
  | .leaf blocks table => table.Nodup ∧ ∀ ci ∈ table, ∃ b r, ci = b :: r ∧ b < blocks
  | .lex _ n child => 0 < n ∧ ∀ i, i < n → (child i).Plausible
  | .inter _ sizes n child => 0 < n ∧ (∀ s ∈ sizes, 0 < s) ∧ ∀ i, i < n → (child i).Plausible
  | .chunked bs child => 0 < bs ∧ child.Plausible
  | .permuted _ after child =>
      (∀ p, after = some p → p.Perm (List.range child.blocks)) ∧ child.Plausible

/-- Different DOFs have different container indices. -/
def OrdTree.Injective (o : OrdTree) : Prop :=
  ∀ path d path' d' ci, o.IsDof path d → o.IsDof path' d' →
    o.mapIndex path d = .ok ci → o.mapIndex path' d' = .ok ci → path = path' ∧ d = d'

/-- `suffix` (outermost entry first) begins the container index of some DOF. -/
def OrdTree.Occurs (o : OrdTree) (suffix : List Nat) : Prop :=
  ∃ path d rest, o.IsDof path d ∧ o.mapIndex path d = .ok (suffix ++ rest)

/-- Every block number below `blocks` is used by a DOF. -/
def OrdTree.Onto (o : OrdTree) : Prop := ∀ k, k < o.blocks → o.Occurs [k]

/-- No container index is longer than `m`. -/
def OrdTree.DepthLe (o : OrdTree) (m : Nat) : Prop :=
  ∀ path d ci, o.IsDof path d → o.mapIndex path d = .ok ci → ci.length ≤ m

/-- The trees for which `size(suffix)` is right: no unblocked lexicographic and no interleaved
nodes, no permutation assigned after `update()`; leaves without gaps, no empty children. -/
def OrdTree.Sized : OrdTree → Prop
  | .leaf blocks table => (∀ x, (OrdTree.leaf blocks table).Occurs [x] ↔ x < blocks) ∧
      ∀ suffix, suffix ≠ [] → ∃ k, ∀ x, (OrdTree.leaf blocks table).Occurs (suffix ++ [x]) ↔ x < k
  | .lex blocked n child => blocked = true ∧ ∀ i, i < n → (child i).Sized ∧ (child i).Occurs []
  | .inter _ _ _ _ => False
  | .chunked _ child => child.Sized
  | .permuted _ after child => after = none ∧ child.Sized

end Verif.Orderings
