import Mathlib.Algebra.Ring.Defs
/-
Model of the local containers and of the weighted accumulation views:
dune/pdelab/gridfunctionspace/localvector.hh, dune/pdelab/gridoperator/common/localmatrix.hh and
dune/pdelab/gridoperator/common/diagonallocalmatrix.hh.
-/
namespace Verif.LocalContainers

variable {K : Type} [Ring K]

/-- localmatrix.hh:455-458  the members of `LocalMatrix`. -/
structure LocalMatrix (K : Type) where
  container : List K
  rows : Nat
  cols : Nat

/-- localmatrix.hh:292-304 and 321-327  construction with a value; `assign` does the same to an existing matrix. -/
def LocalMatrix.mk' (r c : Nat) (t : K) : LocalMatrix K := ⟨List.replicate (r * c) t, r, c⟩

/-- localmatrix.hh:306-312  `resize` (new entries are zero). -/
def LocalMatrix.resize (m : LocalMatrix K) (r c : Nat) : LocalMatrix K :=
  ⟨m.container.take (r * c) ++ List.replicate (r * c - m.container.length) 0, r, c⟩

/-- localmatrix.hh:425-452  the position of entry `(i,j)` in the container (`getEntry`). -/
def LocalMatrix.pos (m : LocalMatrix K) (i j : Nat) : Nat := j * m.rows + i

/-- localmatrix.hh:425-452  `getEntry`; reading outside of the container is undefined (`none`). -/
def LocalMatrix.get? (m : LocalMatrix K) (i j : Nat) : Option K := m.container[m.pos i j]?

/-- localmatrix.hh:425-452  assignment through the reference returned by `getEntry`. -/
def LocalMatrix.set (m : LocalMatrix K) (i j : Nat) (v : K) : LocalMatrix K :=
  { m with container := m.container.set (m.pos i j) v }

/-- localmatrix.hh:355-366  `operator*=`. -/
def LocalMatrix.scale (m : LocalMatrix K) (x : K) : LocalMatrix K := { m with container := m.container.map (x * ·) }

/-- localmatrix.hh:241-250  `iterator::increment` (`ncols() - 1` is unsigned; the iterator of a matrix without columns is not incremented). -/
def increment (c : Nat) (p : Nat × Nat) : Nat × Nat := if p.2 < c - 1 then (p.1, p.2 + 1) else (p.1 + 1, 0)

/-- localmatrix.hh:252-261  `iterator::decrement`. -/
def decrement (c : Nat) (p : Nat × Nat) : Nat × Nat := if p.2 > 0 then (p.1, p.2 - 1) else (p.1 - 1, c - 1)

/-- localmatrix.hh:279-282  `begin`. -/
def beginIt : Nat × Nat := (0, 0)

/-- localmatrix.hh:284-287  `end`. -/
def endIt (r c : Nat) : Nat × Nat := if c > 0 then (r, 0) else beginIt

/-- The positions visited by `for (it = begin(); it != end(); ++it)`, from `p` on, with fuel; `none` if the fuel runs out.
Source: localmatrix.hh:215-287. -/
def iterate (r c : Nat) : Nat → Nat × Nat → Option (List (Nat × Nat))
  | 0, _ => none
  | n + 1, p => if p = endIt r c then some [] else (iterate r c n (increment c p)).map (p :: ·)

/-- `y[i] += v`; undefined outside of the container. Used for `usmvRow`, localmatrix.hh:380-400. -/
def addAt (y : List K) (i : Nat) (v : K) : Option (List K) := y[i]?.map fun o => y.set i (o + v)

/-- localmatrix.hh:380-400  the inner loop of `umv`/`usmv` for row `i`: `alpha * getEntry(i,j) * x[j]` is added to `y[i]` for `j` in the list. -/
def usmvRow (entry : Nat → Nat → Option K) (alpha : K) (x : List K) (i : Nat) : List Nat → List K → Option (List K)
  | [], y => some y
  | j :: js, y => do
    let a ← entry i j
    let b ← x[j]?
    let y ← addAt y i (alpha * a * b)
    usmvRow entry alpha x i js y

/-- localmatrix.hh:380-400  the outer loop. -/
def usmvRows (entry : Nat → Nat → Option K) (c : Nat) (alpha : K) (x : List K) : List Nat → List K → Option (List K)
  | [], y => some y
  | i :: is, y => do
    let y ← usmvRow entry alpha x i (List.range c) y
    usmvRows entry c alpha x is y

/-- localmatrix.hh:391-400  `usmv`. -/
def LocalMatrix.usmv (m : LocalMatrix K) (alpha : K) (x y : List K) : Option (List K) :=
  usmvRows m.get? m.cols alpha x (List.range m.rows) y

/-- localmatrix.hh:380-389  the inner loop of `umv` for row `i`. -/
def umvRow (entry : Nat → Nat → Option K) (x : List K) (i : Nat) : List Nat → List K → Option (List K)
  | [], y => some y
  | j :: js, y => do
    let a ← entry i j
    let b ← x[j]?
    let y ← addAt y i (a * b)
    umvRow entry x i js y

/-- localmatrix.hh:380-389  the outer loop of `umv`. -/
def umvRows (entry : Nat → Nat → Option K) (c : Nat) (x : List K) : List Nat → List K → Option (List K)
  | [], y => some y
  | i :: is, y => do
    let y ← umvRow entry x i (List.range c) y
    umvRows entry c x is y

/-- localmatrix.hh:380-389  `umv`. -/
def LocalMatrix.umv (m : LocalMatrix K) (x y : List K) : Option (List K) := umvRows m.get? m.cols x (List.range m.rows) y

/-- diagonallocalmatrix.hh:292-296  members; rows and columns are equal by assertion. -/
structure DiagonalLocalMatrix (K : Type) where
  container : List K

/-- diagonallocalmatrix.hh:261-290  `getEntry`: asserts `i == j`. -/
def DiagonalLocalMatrix.get? (m : DiagonalLocalMatrix K) (i j : Nat) : Option K := if i = j then m.container[i]? else none

/-- diagonallocalmatrix.hh:227-236  `usmv`: loops over all columns. -/
def DiagonalLocalMatrix.usmv (m : DiagonalLocalMatrix K) (alpha : K) (x y : List K) : Option (List K) :=
  usmvRows m.get? m.container.length alpha x (List.range m.container.length) y

/-! ### Weighted accumulation views -/

/-- localvector.hh:164-168 and localmatrix.hh:166-170  a view: weight and modification flag (the reference to the container is implicit). -/
structure View (K : Type) where
  weight : K
  modified : Bool
deriving DecidableEq, Repr

/-- A container with entries indexed by `ι` and the views created on it so far. Source: localvector.hh:27-168. -/
structure VState (ι K : Type) where
  entries : ι → K
  views : List (View K)

/-- Operations on a container and its views (views are numbered in the order of creation). Source: localvector.hh:27-168. -/
inductive VOp (ι K : Type) where
  /-- localvector.hh:213-217, localmatrix.hh:402-406  `weightedAccumulationView(weight)` of the container. -/
  | view (weight : K)
  /-- localvector.hh:47-52, localmatrix.hh:45-50  `weightedAccumulationView(weight)` of view `k`. -/
  | nest (k : Nat) (weight : K)
  /-- localvector.hh:77-83, localmatrix.hh:75-83  `accumulate`. -/
  | accumulate (k : Nat) (e : ι) (v : K)
  /-- localvector.hh:85-95, localmatrix.hh:85-97  `rawAccumulate`. -/
  | rawAccumulate (k : Nat) (e : ι) (v : K)
  /-- localvector.hh:67-75, localmatrix.hh:65-73  `setWeight`. -/
  | setWeight (k : Nat) (w : K)
  /-- localvector.hh:116-124, localmatrix.hh:117-125  `resetModified`. -/
  | resetModified (k : Nat)

/-- Add `v` to the entry `e`. Source: localvector.hh:77-83. -/
def addEntry {ι : Type} [DecidableEq ι] (f : ι → K) (e : ι) (v : K) : ι → K := fun i => if i = e then f i + v else f i

/-- One operation; using a view that does not exist is an error. Source: localvector.hh:27-168. -/
def vstep {ι : Type} [DecidableEq ι] (s : VState ι K) : VOp ι K → Option (VState ι K)
  | .view w => some { s with views := s.views ++ [⟨w, false⟩] }
  | .nest k w => (s.views[k]?).map fun v =>
      { s with views := s.views.set k { v with modified := true } ++ [⟨w * v.weight, false⟩] }
  | .accumulate k e x => (s.views[k]?).map fun v =>
      ⟨addEntry s.entries e (v.weight * x), s.views.set k { v with modified := true }⟩
  | .rawAccumulate k e x => (s.views[k]?).map fun v =>
      ⟨addEntry s.entries e x, s.views.set k { v with modified := true }⟩
  | .setWeight k w => (s.views[k]?).map fun v => { s with views := s.views.set k { v with weight := w } }
  | .resetModified k => (s.views[k]?).map fun v => { s with views := s.views.set k { v with modified := false } }

/-- A history. Source: localvector.hh:27-168. -/
def vrun {ι : Type} [DecidableEq ι] (s : VState ι K) : List (VOp ι K) → Option (VState ι K)
  | [] => some s
  | op :: ops => (vstep s op).bind fun s => vrun s ops

end Verif.LocalContainers
