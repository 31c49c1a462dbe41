import Verif.Model.BlockOperators
import Mathlib.Data.Rat.Floor
/-
Model of the matrix-free block preconditioners, dune/pdelab/backend/istl/matrixfree/*.hh: the block Jacobi preconditioners
with assembled and with iteratively inverted diagonal blocks, the block SOR preconditioner, the class that turns a grid
operator into a preconditioner, and the statistics of the block solvers.

Weights of accumulation views are 1. The LU decomposition of Eigen and the iterative solver of dune-istl are parameters.
-/
namespace Verif.BlockPrec

open GridAssembler LocalOp BlockOp

variable {K : Type} [Field K]

/-- Assignment to one entry. Source: assignments to containers such as blocksorpreconditioner.hh:124, 131. -/
def upd {ι α : Type} [DecidableEq ι] (f : ι → α) (i : ι) (v : α) : ι → α := fun j => if j = i then v else f j

/-! ### assembledblockjacobipreconditioner.hh -/

/-- assembledblockjacobipreconditioner.hh:51-55  `WeightedEigenMatrixAccumulationView::accumulate`: the spaces are not looked
at. -/
def eigenView (calls : Calls (LDof × LDof) K) : Nat → Nat → K :=
  calls.foldl (fun m c => upd m c.1.1.2 (upd (m c.1.1.2) c.1.2.2 (m c.1.1.2 c.1.2.2 + c.2))) fun _ _ => 0

/-- assembledblockjacobipreconditioner.hh:175-181  the inverse of the permutation. -/
def invertPermutation (size : Nat) (inv : Nat → Nat) : Nat → Nat :=
  (List.range size).foldl (fun p i => upd p (inv i) i) fun _ => 0

/-- assembledblockjacobipreconditioner.hh:162-186  `alpha_volume`: what is stored for the cell. `lu` is Eigen's decomposition
of a matrix, in place, with the indices of its permutation. -/
def assembledSetup (lu : Nat → (Nat → Nat → K) → (Nat → Nat → K) × (Nat → Nat)) (size : Nat)
    (calls : Calls (LDof × LDof) K) : (Nat → Nat → K) × (Nat → Nat) :=
  let r := lu size (eigenView calls)
  (r.1, invertPermutation size r.2)

/-- assembledblockjacobipreconditioner.hh:219-225  forward solve with the lower triangle. -/
def forwardSolve (a : Nat → Nat → K) (perm : Nat → Nat) (z : Nat → K) (size : Nat) : Nat → K :=
  (List.range size).foldl (fun t i =>
    upd t i ((List.range i).foldl (fun rhs j => rhs - a i j * t j) (z (perm i)))) fun _ => 0

/-- assembledblockjacobipreconditioner.hh:226-232  backward solve with the upper triangle; `y` is what the container holds
before. -/
def backwardSolve (a : Nat → Nat → K) (t : Nat → K) (size : Nat) (y : Nat → K) : Nat → K :=
  (List.range size).reverse.foldl (fun y i =>
    upd y i (((List.range size).reverse.filter fun j => i < j).foldl (fun rhs j => rhs - a i j * y j) (t i) / a i i)) y

/-- assembledblockjacobipreconditioner.hh:202-233  `jacobian_apply_volume`. -/
def assembledApply (cache : (Nat → Nat → K) × (Nat → Nat)) (size : Nat) (z y : Nat → K) : Nat → K :=
  backwardSolve cache.1 (forwardSolve cache.1 cache.2 z size) size y

/-! ### iterativeblockjacobipreconditioner.hh -/

/-- `std::vector::resize`. Source: used in iterativeblockjacobipreconditioner.hh:344. -/
def resize (l : List K) (n : Nat) : List K := l.take n ++ List.replicate (n - l.length) 0

/-- iterativeblockjacobipreconditioner.hh:337-353  `alpha_volume`: what is stored for the cell, given what was stored before
and the calls of `accumulate` (with the indices in the whole local space, line 182). -/
def iterativeSetup (cache : List K) (size : Nat) (calls : Calls Nat K) : List K :=
  (calls.foldl (fun l c => l.set c.1 (l.getD c.1 0 + c.2)) (resize cache size)).map fun v => 1 / v

/-- iterativeblockjacobipreconditioner.hh:57-72  `LocalPointJacobiPreconditioner::apply`. -/
def pointJacobi (precondition : Bool) (weight : K) (invDiagonal d : List K) : List K :=
  if precondition then List.zipWith (fun a b => weight * a * b) d invDiagonal else d

/-! ### blocksorpreconditioner.hh -/

/-- The member `_a_i` and the result vector, in which the engine of the fast DG grid operator works directly. Source: blocksorpreconditioner.hh:294. -/
structure SorState (K : Type) where
  a : LDof → K
  v : GDof → K

/-- blocksorpreconditioner.hh:49-56  the flags. -/
def sorEngine : Engine where
  uvSkeleton := true
  vSkeleton := false
  uvBoundary := false
  vBoundary := false
  uvPost := true
  vPost := false
  twoSided := true
  interiorOnly := false
  skipEntity _ := false
  skipIntersection _ _ _ := false

/-- Accumulation into a local vector; both views of the skeleton term belong to the same one. Source: blocksorpreconditioner.hh:195-203, 214-217. -/
def accumulateBoth (a : LDof → K) (l : Calls (Side × LDof) K) : LDof → K :=
  l.foldl (fun a c => upd a c.1.2 (a c.1.2 + c.2)) a

/-- blocksorpreconditioner.hh:102-288  what happens at a call of the assembler. `off` is the operator for the off-diagonal
blocks, `solve` what the Jacobi operator adds to a vector of zeros, `x` the linearisation point, `d` the vector the
preconditioner is applied to. -/
def sorStep (interior : Nat → Bool) (off : Lop K) (solve : Nat → (LDof → K) → LDof → K) (omega : K) (x d : GDof → K)
    (s : SorState K) (e : Event) : Option (SorState K) :=
  match e.kind with
  | .assembleUVVolume => some { s with a := fun _ => 0 }
  | .assembleUVSkeleton =>
    if interior e.cell then
      (off.applySkeleton ⟨e.cell, e.face, e.index, e.outside⟩ e.cell (linPoint off fun a => x (e.cell, a))
        (fun a => s.v (e.cell, a)) e.outside (linPoint off fun a => x (e.outside, a)) fun a => s.v (e.outside, a)).map
        fun l => { s with a := accumulateBoth s.a l }
    else some s
  | .assembleUVVolumePostSkeleton =>
    let a := fun i => s.a i - d (e.cell, i)
    let b := solve e.cell a
    some { a := a, v := fun g => if g.1 = e.cell then (1 - omega) * s.v g - omega * b g.2 else s.v g }
  | _ => some s

/-- `jacobian_apply` of the preconditioner's grid operator. Source: gridoperatorpreconditioner.hh:81-83. -/
def sorSweep (allPartitions : Bool) (cells : List Cell) (interior : Nat → Bool) (off : Lop K)
    (solve : Nat → (LDof → K) → LDof → K) (omega : K) (x d v : GDof → K) : Option (GDof → K) :=
  ((assemble sorEngine allPartitions cells).foldlM (sorStep interior off solve omega x d) ⟨fun _ => 0, v⟩).map SorState.v

/-- blocksorpreconditioner.hh:65-66  the size of `_a_i`. -/
def maxLocalSize (sizes : List Nat) : Nat := sizes.foldl max 0

/-- blocksorpreconditioner.hh:228-232  the first `transform` reads as many entries as `_a_i` has, from the first entry of the
cell `c` on; `sizes` are the sizes of the blocks in the order in which they are stored. Is that within the vector? -/
def transformInBounds (sizes : List Nat) (c : Nat) : Bool :=
  (sizes.take c).sum + maxLocalSize sizes ≤ sizes.sum

/-- iterativeblockjacobipreconditioner.hh:382-383  as many entries as `_a_i` has are copied into a vector of the size of the
cell. -/
def copyInBounds (sizes : List Nat) (c : Nat) : Bool := maxLocalSize sizes ≤ sizes.getD c 0

/-! ### gridoperatorpreconditioner.hh -/

/-- The state of a preconditioner for an operator: the flag of the local operator, the linearisation point set, and the
linearisation point of the blocks that are stored (`none` if there are none). Source: gridoperatorpreconditioner.hh:39-76. -/
structure PrecState (U : Type) where
  requireSetup : Bool
  u : Option U
  blocks : Option U
deriving DecidableEq, Repr

/-- gridoperatorpreconditioner.hh:32-35 and assembledblockjacobipreconditioner.hh:131-140. -/
def PrecState.initial {U : Type} : PrecState U := ⟨true, none, none⟩

/-- The calls of a user. Source: gridoperatorpreconditioner.hh:39-84. -/
inductive PrecOp (U : Type) where
  | setLinearizationPoint (u : U)
  | setRequireSetup (b : Bool)
  | pre
deriving DecidableEq, Repr

/-- gridoperatorpreconditioner.hh:38-76  for a nonlinear problem. `none`: an exception. -/
def precStep {U : Type} (s : PrecState U) : PrecOp U → Option (PrecState U)
  | .setLinearizationPoint u => some { s with u := some u }
  | .setRequireSetup b => some { s with requireSetup := b }
  | .pre =>
    match s.u with
    | none => none
    | some u => if s.requireSetup then some ⟨false, some u, some u⟩ else some s

/-- gridoperatorpreconditioner.hh:78-84, assembledblockjacobipreconditioner.hh:205-210  `apply` for a nonlinear problem: the
linearisation point of the blocks that are inverted; `none`: a failing assertion or a null pointer. -/
def precApply {U : Type} (s : PrecState U) : Option U :=
  if s.requireSetup then none else if s.u.isNone then none else s.blocks

/-! ### solverstatistics.hh -/

/-- solverstatistics.hh:77, 90  `std::accumulate(data.begin(),data.end(),0)`: the sum is kept in an `int`. Overflow is left
out. -/
def accumulateInt (trunc : ℚ → Int) (data : List ℚ) : Int := data.foldl (fun s x => trunc (s + x)) 0

/-- solverstatistics.hh:91-92  `std::inner_product(…,0)`. -/
def innerProductInt (trunc : ℚ → Int) (data : List ℚ) : Int := data.foldl (fun s x => trunc (s + x * x)) 0

/-- Conversion of a floating point number to `int`. Source: the accumulation in `int` of solverstatistics.hh:91-92. -/
def truncate (q : ℚ) : Int := if 0 ≤ q then ⌊q⌋ else ⌈q⌉

/-- solverstatistics.hh:66-70  `size` (on all processes). -/
def statSize (procs : List (List ℚ)) : Nat := (procs.map List.length).sum

/-- solverstatistics.hh:76-82  `avg`; `none` is not a number. -/
def statAvg (procs : List (List ℚ)) : Option ℚ :=
  if statSize procs = 0 then none
  else some ((procs.map fun d => ((accumulateInt truncate d : Int) : ℚ)).sum / statSize procs)

/-- solverstatistics.hh:88-98  the radicand of `stddev`; `none` is not a number. -/
def statVariance (procs : List (List ℚ)) : Option ℚ :=
  let n : ℚ := statSize procs
  let s := (procs.map fun d => ((accumulateInt truncate d : Int) : ℚ)).sum
  let ss := (procs.map fun d => ((innerProductInt truncate d : Int) : ℚ)).sum
  if n = 0 ∨ n - 1 = 0 then none else some (1 / (n - 1) * (ss - s * s / n))

/-- `*std::min_element(…)`; `none`: dereferencing the end. Source: used in solverstatistics.hh:105. -/
def minElement : List ℚ → Option ℚ
  | [] => none
  | a :: l => some (l.foldl (fun m x => if x < m then x else m) a)

/-- `*std::max_element(…)`. Source: used in solverstatistics.hh:115. -/
def maxElement : List ℚ → Option ℚ
  | [] => none
  | a :: l => some (l.foldl (fun m x => if m < x then x else m) a)

/-- solverstatistics.hh:104-108  `min`. -/
def statMin (procs : List (List ℚ)) : Option ℚ := (procs.mapM minElement).bind minElement

/-- solverstatistics.hh:114-118  `max`. -/
def statMax (procs : List (List ℚ)) : Option ℚ := (procs.mapM maxElement).bind maxElement

end Verif.BlockPrec
