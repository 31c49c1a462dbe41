import Mathlib.Algebra.Field.Defs
import Mathlib.Algebra.BigOperators.Group.Finset.Basic
import Mathlib.Data.Fintype.BigOperators
import Mathlib.Order.Defs.LinearOrder
/-
Model of the eigensolver for the GenEO coarse space, dune/pdelab/backend/istl/geneo/arpackpp_geneo.hh.

Parameters: the sparse direct solver (UMFPack), the eigensolver for ordinary eigenproblems (ARPACK++) and `std::sort`. Matrices are square with `N`
block rows of `b` by `b` blocks; `none` is a block outside of the pattern. Numbers are elements of a field. Verbosity is not modelled.
-/
namespace Verif.Eigensolver

open Finset

variable {K : Type} [Field K] {N b : Nat}

/-- A flat array, as passed by ARPACK. Used for `arrayToDomainBlockVector`, arpackpp_geneo.hh:174-180. -/
abbrev Flat (K : Type) (N b : Nat) := Fin (N * b) → K

/-- A block vector. Used for `arrayToDomainBlockVector`, arpackpp_geneo.hh:174-180. -/
abbrev Blocks (K : Type) (N b : Nat) := Fin N → Fin b → K

/-- A block matrix with its pattern. Used for `multMv`, arpackpp_geneo.hh:92-107. -/
abbrev BlockMat (K : Type) (N b : Nat) := Fin N → Fin N → Option (Fin b → Fin b → K)

/-- `block*dbvBlockSize + iBlock`, arpackpp_geneo.hh:152-180. -/
def pos (block : Fin N) (i : Fin b) : Fin (N * b) :=
  ⟨block.val * b + i.val, by
    have h1 : block.val * b + i.val < (block.val + 1) * b := by rw [Nat.add_mul, Nat.one_mul]; omega
    exact Nat.lt_of_lt_of_le h1 (Nat.mul_le_mul_right b block.isLt)⟩

/-- `arrayToDomainBlockVector`, arpackpp_geneo.hh:174-180: every component of the block vector is assigned. -/
def toBlocks (v : Flat K N b) : Blocks K N b := fun block i => v (pos block i)

/-- `v[k] = x`. Used for `rangeBlockVectorToArray`, arpackpp_geneo.hh:163-169. -/
def assign (v : Flat K N b) (k : Fin (N * b)) (x : K) : Flat K N b := fun l => if l = k then x else v l

/-- `rangeBlockVectorToArray`, arpackpp_geneo.hh:163-169: two nested loops that overwrite the array. -/
def toArray (r : Blocks K N b) (v : Flat K N b) : Flat K N b :=
  (List.finRange N).foldl (fun v block => (List.finRange b).foldl (fun v i => assign v (pos block i) (r block i)) v) v

/-- An entry; zero outside of the pattern. Used for `mv`, arpackpp_geneo.hh:98-99. -/
def entry (M : BlockMat K N b) (I J : Fin N) (i j : Fin b) : K :=
  match M I J with
  | some m => m i j
  | none => 0

/-- `BCRSMatrix::mv`, arpackpp_geneo.hh:98-99. -/
def mv (M : BlockMat K N b) (x : Blocks K N b) : Blocks K N b := fun I i => ∑ J, ∑ j, entry M I J i j * x J j

/-- `BCRSMatrix::axpy`, arpackpp_geneo.hh:291-292: blocks of the second matrix outside of the pattern of the first one are undefined behaviour. -/
def axpy (alpha : K) (A B : BlockMat K N b) : Option (BlockMat K N b) :=
  if ∀ I J, A I J = none → B I J = none then
    some fun I J => (A I J).map fun a => match B I J with
      | some m => fun i j => a i j + alpha * m i j
      | none => a
  else none

/-- `multMv`, arpackpp_geneo.hh:92-107: multiplication by the second matrix, then a solve with the first one. `solve` is the direct solver, `w` the array
that is overwritten. -/
def multMv (solve : BlockMat K N b → Blocks K N b → Blocks K N b) (S B : BlockMat K N b) (v w : Flat K N b) : Flat K N b :=
  toArray (solve S (mv B (toBlocks v))) w

/-- `multMvB`, arpackpp_geneo.hh:109-119. -/
def multMvB (B : BlockMat K N b) (v w : Flat K N b) : Flat K N b := toArray (mv B (toBlocks v)) w

/-- What ARPACK stores for one eigenvalue: real part, imaginary part and `RawEigenvector`. Used for `compute`, arpackpp_geneo.hh:321-342. -/
structure Raw (K : Type) (N b : Nat) where
  re : K
  im : K
  vec : Flat K N b

/-- `sigma+1./ev[a]`, arpackpp_geneo.hh:333 and 339. -/
def unshift (sigma mu : K) : K := sigma + 1 / mu

/-- `computeGenNonSymMinMagnitude`, arpackpp_geneo.hh:271-347, with `x.size() = nev`: the pairs of `lambda` and `x`. `arpack op nev` are the eigenvalues and
vectors ARPACK finds for the operator `op`, at most `nev`; `sort less l` is `std::sort`. Fewer than `nev` found ones leave zeros in `ev` and
eigenvectors that do not exist (`none`), so do eigenvalues zero, whose inverse is infinite. -/
def compute [LinearOrder K] (sort : (Nat → Nat → Bool) → List Nat → List Nat) (solve : BlockMat K N b → Blocks K N b → Blocks K N b)
    (arpack : (Flat K N b → Flat K N b → Flat K N b) → Nat → List (Raw K N b)) (A B : BlockMat K N b) (sigma : K) (nev : Nat) :
    Option (List (K × Flat K N b)) := do
  let ashiftb ← axpy (-sigma) A B
  let found := arpack (multMv solve ashiftb B) nev
  let ev : Nat → K := fun i => ((found[i]?).map Raw.re).getD 0
  let index := sort (fun a c => decide (unshift sigma (ev a) < unshift sigma (ev c))) (List.range nev)
  (List.range nev).mapM fun i => do
    let k ← index[i]?
    let e ← found[k]?
    if e.re = 0 then none else some (unshift sigma e.re, e.vec)

end Verif.Eigensolver
