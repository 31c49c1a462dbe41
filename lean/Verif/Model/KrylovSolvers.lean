import Verif.Model.ParallelSolvers
/-
Model of how the parallel solver backends run an iterative solver: they give it an operator, a scalar product and a preconditioner.
Sources: dune/pdelab/backend/istl/ovlpistlsolverbackend.hh:489-519, 546-576, 609-639, 777-803, 838-862, 896-920,
dune/pdelab/backend/istl/novlpistlsolverbackend.hh:367-387, 457-480, 522-544, 598-621.

The iterative solvers are those of dune-istl and not part of this code. A solver is a tree of the calls it makes; after a scalar product it goes
on with any function of its value, so that the tree may depend on all scalar products before. Norms are roots of scalar products. Vectors are kept
in numbered registers.
-/
namespace Verif.KrylovSolvers

open ParallelHelper ParallelSolvers

/-- A solver. `prec dst src` sets `dst` to zero and applies the preconditioner, as all solvers do. The calls are those of the interfaces
implemented in ovlpistlsolverbackend.hh:55-69, 93-122, 146-183 and novlpistlsolverbackend.hh:86-115, 150-173, 216-228, 309-323. -/
inductive Solver (K : Type) where
  | done
  | clear (dst : Nat) (next : Solver K)
  | copy (dst src : Nat) (next : Solver K)
  | scale (dst : Nat) (a : K) (next : Solver K)
  | axpy (dst : Nat) (a : K) (src : Nat) (next : Solver K)
  | apply (dst src : Nat) (next : Solver K)
  | applyscaleadd (a : K) (src dst : Nat) (next : Solver K)
  | prec (dst src : Nat) (next : Solver K)
  | dot (x y : Nat) (next : K → Solver K)

/-- What a solver is given: vectors of type `V`, `apply` and `applyscaleadd` of the operator, the preconditioner and the scalar product; `none` is an
exception. Source: ovlpistlsolverbackend.hh:493-508. -/
structure Backend (K V : Type) where
  zero : V
  scale : K → V → V
  axpy : K → V → V → V
  apply : V → Option V
  applyscaleadd : K → V → V → Option V
  prec : V → Option V
  dot : V → V → K

/-- `solver.apply(z,r,stat)`, ovlpistlsolverbackend.hh:510: the registers afterwards and the values of all scalar products. -/
def run {K V : Type} (B : Backend K V) : Solver K → (Nat → V) → Option ((Nat → V) × List K)
  | .done, s => some (s, [])
  | .clear d n, s => run B n (Function.update s d B.zero)
  | .copy d x n, s => run B n (Function.update s d (s x))
  | .scale d a n, s => run B n (Function.update s d (B.scale a (s d)))
  | .axpy d a x n, s => run B n (Function.update s d (B.axpy a (s x) (s d)))
  | .apply d x n, s => (B.apply (s x)).bind fun v => run B n (Function.update s d v)
  | .applyscaleadd a x d n, s => (B.applyscaleadd a (s x) (s d)).bind fun v => run B n (Function.update s d v)
  | .prec d x n, s => (B.prec (s x)).bind fun v => run B n (Function.update s d v)
  | .dot x y n, s => (run B (n (B.dot (s x) (s y))) s).map fun r => (r.1, B.dot (s x) (s y) :: r.2)

section
variable {K : Type} [CommRing K]

/-- The vector operations of the containers on all processes, backend/istl/vector.hh:150-215 (`*=`, `axpy`, assignment of zero). -/
def vectors (apply : Vecs K → Option (Vecs K)) (applyscaleadd : K → Vecs K → Vecs K → Option (Vecs K)) (prec : Vecs K → Option (Vecs K))
    (dot : Vecs K → Vecs K → K) : Backend K (Vecs K) :=
  ⟨fun _ _ => 0, fun a v p i => a * v p i, fun a x y p i => y p i + a * x p i, apply, applyscaleadd, prec, dot⟩

/-- The overlapping backends with a wrapped sequential preconditioner, ovlpistlsolverbackend.hh:489-519, 546-576, 609-639, 777-803. -/
def ovlpWrapped (L : Layout) (msgs : List Message) (ranks : Nat → List Nat) (cc : Nat → List Nat) (A : Nat → Nat → Nat → K)
    (prec : Nat → (Nat → K) → (Nat → K) → Nat → K) : Backend K (Vecs K) :=
  vectors (fun x => some (ovlpApply L cc A x)) (fun a x y => some (ovlpApplyscaleadd L cc a A x y)) (wrappedApply L msgs cc prec fun _ _ => 0)
    (ParallelSolvers.dot L ranks)

/-- The overlapping backends with a direct solver on the subdomains, ovlpistlsolverbackend.hh:838-862, 896-920. -/
def ovlpSubdomain (L : Layout) (msgs : List Message) (ranks : Nat → List Nat) (cc : Nat → List Nat) (A : Nat → Nat → Nat → K)
    (solve : Nat → (Nat → K) → Nat → K) : Backend K (Vecs K) :=
  vectors (fun x => some (ovlpApply L cc A x)) (fun a x y => some (ovlpApplyscaleadd L cc a A x y)) (subdomainApply L msgs solve)
    (ParallelSolvers.dot L ranks)

/-- The nonoverlapping backends without preconditioner, novlpistlsolverbackend.hh:367-387, 522-544 (`NonoverlappingRichardson`, 216-228, copies). -/
def novlpPlain (L : Layout) (msgs : List Message) (ranks : Nat → List Nat) (A : Nat → Nat → Nat → K) : Backend K (Vecs K) :=
  vectors (novlpApply L msgs A) (fun a x y => novlpApplyscaleadd L msgs a A x y) some (ParallelSolvers.dot L ranks)

/-- The nonoverlapping backends with the Jacobi preconditioner, novlpistlsolverbackend.hh:457-480, 598-621, for scalar entries. -/
def novlpJacobi (L : Layout) (msgs : List Message) (ranks : Nat → List Nat) (A : Nat → Nat → Nat → K) (inv : K → K) : Backend K (Vecs K) :=
  vectors (novlpApply L msgs A) (fun a x y => novlpApplyscaleadd L msgs a A x y)
    (fun d => (jacobiSetup msgs inv A).map fun D => jacobiApply (· * ·) D d) (ParallelSolvers.dot L ranks)

end

end Verif.KrylovSolvers
