import Verif.Model.Views
/-
Vocabulary for the properties of views and interpolation.
-/
namespace Verif.Views.Spec

variable {I J K P : Type} [DecidableEq I] [DecidableEq J] [Ring K]

/-- The entries of the local container the loop variable selects have the values `val`, all others are as before. -/
def Read (n : Nat) (pos : Nat → Nat) (val : Nat → K) (l l' : List K) : Prop :=
  l'.length = l.length ∧ (∀ i < n, l'[pos i]? = some (val i)) ∧ ∀ k, (∀ i < n, pos i ≠ k) → l'[k]? = l[k]?

/-- The entries with the indices `idx i` have the values `val i`, all others are as before. -/
def Written (n : Nat) (idx : Nat → I) (val : Nat → K) (x x' : I → K) : Prop :=
  (∀ i < n, x' (idx i) = val i) ∧ ∀ c, (∀ i < n, idx i ≠ c) → x' c = x c

/-- Every entry has grown by the sum of all values that belong to it. -/
def Added (n : Nat) (idx : Nat → I) (val : Nat → K) (x x' : I → K) : Prop :=
  ∀ c, x' c = x c + ((List.range n).map fun i => if idx i = c then val i else 0).sum

/-- No two of the first `n` indices are equal. -/
def Distinct {A : Type} (n : Nat) (idx : Nat → A) : Prop := ∀ i < n, ∀ j < n, idx i = idx j → i = j

/-- The degrees of freedom of the element are stored one after the other. -/
def Contiguous (address : I → Nat) (cache : Cache I) : Prop :=
  ∀ i < cache.size, address (cache.containerIndex i) = address (cache.containerIndex 0) + i

/-- The block of the matrix for two elements is stored row by row. -/
def ContiguousBlock (address : I → J → Nat) (rows : Cache I) (cols : Cache J) : Prop :=
  ∀ i < rows.size, ∀ j < cols.size, address (rows.containerIndex i) (cols.containerIndex j)
    = address (rows.containerIndex 0) (cols.containerIndex 0) + (i * cols.size + j)

/-! ### Interpolation -/

/-- Which function is interpolated into which leaf: a function that is a leaf into a leaf, a scalar function into all leaves, the `k`-th
component of a vector-valued function into the `k`-th leaf, children of the function into children of the space. -/
inductive Assigned : Functions P K → Spaces P K → (P → List K) → LeafSpace P K → Prop
  | leaf (d : Nat) (f : P → List K) (lfs : LeafSpace P K) (h : lfs.child.size ≠ 0) : Assigned (.leaf d f) (.leaf lfs) f lfs
  | scalar (f : P → List K) (ss : List (Spaces P K)) (lfs : LeafSpace P K) (h : lfs ∈ (Spaces.node ss).leaves) :
    Assigned (.leaf 1 f) (.node ss) f lfs
  | vector (d : Nat) (f : P → List K) (ss : List (Spaces P K)) (lfs : LeafSpace P K) (k : Nat) (hd : d ≠ 1)
    (h : (Spaces.node ss).leaves[k]? = some lfs) : Assigned (.leaf d f) (.node ss) (fun p => [(f p).getD k 0]) lfs
  | node (fs : List (Functions P K)) (ss : List (Spaces P K)) (k : Nat) (f : Functions P K) (s : Spaces P K) (g : P → List K)
    (lfs : LeafSpace P K) (hf : fs[k]? = some f) (hs : ss[k]? = some s) (h : Assigned f s g lfs) : Assigned (.node fs) (.node ss) g lfs

/-- The leaf has a finite element and its interpolation returns one coefficient for each degree of freedom. -/
def Ready (lfs : LeafSpace P K) : Prop := ∃ interp, lfs.interpolation = some interp ∧ ∀ f, (interp f).length = lfs.child.size

/-- The function can be interpolated into the space. -/
inductive Fits : Functions P K → Spaces P K → Prop
  | leaf (d : Nat) (f : P → List K) (lfs : LeafSpace P K) (h : lfs.child.size = 0 ∨ Ready lfs) : Fits (.leaf d f) (.leaf lfs)
  | scalar (f : P → List K) (ss : List (Spaces P K)) (h : ∀ lfs ∈ (Spaces.node ss).leaves, Ready lfs) : Fits (.leaf 1 f) (.node ss)
  | vector (d : Nat) (f : P → List K) (ss : List (Spaces P K)) (hd : (Spaces.node ss).leaves.length = d)
    (h : ∀ lfs ∈ (Spaces.node ss).leaves, Ready lfs) : Fits (.leaf d f) (.node ss)
  | node (fs : List (Functions P K)) (ss : List (Spaces P K)) (hl : fs.length = ss.length)
    (h : ∀ (k : Nat) f s, fs[k]? = some f → ss[k]? = some s → Fits f s) : Fits (.node fs) (.node ss)

/-- On the element, the degree of freedom `c` is the `i`-th of a leaf into which the function is interpolated, and the interpolation of the
leaf gives it the coefficient `v`. -/
def Coefficient (e : Element I P K) (c : I) (v : K) : Prop :=
  ∃ g lfs interp, Assigned e.functions e.spaces g lfs ∧ lfs.interpolation = some interp ∧
    ∃ i < lfs.child.size, e.cache.containerIndex (lfs.child.localIndex i) = c ∧ (interp g)[i]? = some v

/-- The function the coefficients `x` define on the leaf with the shape functions `phi`. -/
def discreteFunction (e : Element I P K) (lfs : LeafSpace P K) (phi : Nat → P → List K) (m : Nat) (x : I → K) : P → List K := fun p =>
  (List.range m).map fun k =>
    ((List.range lfs.child.size).map fun i => x (e.cache.containerIndex (lfs.child.localIndex i)) * (phi i p).getD k 0).sum

end Verif.Views.Spec
