import Verif.Model.KrylovSolvers
import Verif.Spec.ParallelSolvers
/-
The global iterations which the parallel solvers are to perform.
-/
namespace Verif.KrylovSolvers.Spec

open ParallelHelper ParallelSolvers ParallelSolvers.Spec

/-- What a register holds: the given right-hand side, a defect (something in the range of the operator), or a correction or solution. -/
inductive Role where
  | rhs | defect | solution
  deriving DecidableEq

/-- A solver that uses its registers properly: it applies the operator to solutions, `applyscaleadd` to the right-hand side, the preconditioner to
defects, combines only vectors of the same kind, and takes scalar products of defects and solutions. In the end the register `out` is a solution.
A zero vector may be used as a vector of any kind. -/
inductive Proper {K : Type} (out : Nat) : (Nat → Role) → Solver K → Prop where
  | done {ρ} : ρ out = .solution → Proper out ρ .done
  | clear {ρ d n} (r : Role) : Proper out (Function.update ρ d r) n → Proper out ρ (.clear d n)
  | copy {ρ d x n} : Proper out (Function.update ρ d (ρ x)) n → Proper out ρ (.copy d x n)
  | scale {ρ d a n} : Proper out ρ n → Proper out ρ (.scale d a n)
  | axpy {ρ d a x n} : ρ x = ρ d → Proper out ρ n → Proper out ρ (.axpy d a x n)
  | apply {ρ d x n} : ρ x = .solution → Proper out (Function.update ρ d .defect) n → Proper out ρ (.apply d x n)
  | applyscaleadd {ρ a d x n} : ρ x = .solution → ρ d = .rhs → Proper out (Function.update ρ d .defect) n → Proper out ρ (.applyscaleadd a x d n)
  | prec {ρ d x n} : ρ x = .defect → Proper out (Function.update ρ d .solution) n → Proper out ρ (.prec d x n)
  | dot {ρ x y n} : ρ x ≠ .rhs → ρ y ≠ .rhs → (∀ v, Proper out ρ (n v)) → Proper out ρ (.dot x y n)

section
variable {K : Type} [CommRing K]

/-- The sequential solver for the matrix `A` on all DOFs, with the preconditioner `prec` and the usual scalar product. -/
def sequential (ents : List Nat) (ndof : Nat → Nat) (A : (Nat → Nat → K) → Nat → Nat → K)
    (add : K → (Nat → Nat → K) → (Nat → Nat → K) → Nat → Nat → K) (prec : (Nat → Nat → K) → Nat → Nat → K) : Backend K (Nat → Nat → K) where
  zero := fun _ _ => 0
  scale a v := fun e k => a * v e k
  axpy a x y := fun e k => y e k + a * x e k
  apply x := some (A x)
  applyscaleadd a x y := some (add a x y)
  prec d := some (prec d)
  dot x y := sumDofs ents ndof fun e k => x e k * y e k

/-- The sequential solver for the matrix `M`. -/
def plain (ents : List Nat) (ndof : Nat → Nat) (M : Nat → Nat → Nat → Nat → K) (prec : (Nat → Nat → K) → Nat → Nat → K) : Backend K (Nat → Nat → K) :=
  sequential ents ndof (globalMv ents ndof M) (fun a x y e k => y e k + a * globalMv ents ndof M x e k) prec

open Classical in
/-- The sequential solver for the matrix `M` if the DOFs in `fixed` have been eliminated: their defects are zero. -/
noncomputable def eliminated (ents : List Nat) (ndof : Nat → Nat) (M : Nat → Nat → Nat → Nat → K) (fixed : Nat → Nat → Prop)
    (prec : (Nat → Nat → K) → Nat → Nat → K) : Backend K (Nat → Nat → K) :=
  sequential ents ndof (fun x e k => if fixed e k then 0 else globalMv ents ndof M x e k)
    (fun a x y e k => if fixed e k then 0 else y e k + a * globalMv ents ndof M x e k) prec

/-- The part of a global vector stored on process `p`. -/
def part (L : Layout) (ents : List Nat) (ndof : Nat → Nat) (p : Nat) (D : Nat → Nat → K) (i : Nat) : K :=
  sumDofs ents ndof fun e k => if pos L all p e k = some i then D e k else 0

/-- The additive Schwarz method with the solvers `solve p` on the subdomains and zero boundary values at the DOFs in `cc p`. -/
def schwarz (L : Layout) (ents : List Nat) (ndof : Nat → Nat) (cc : Nat → List Nat) (solve : Nat → (Nat → K) → Nat → K) (D : Nat → Nat → K) :
    Nat → Nat → K :=
  total L all fun p => solve p fun i => if i ∈ cc p then 0 else part L ents ndof p D i

/-- The DOFs constrained on the processes: those in `fixed` on all processes having them, and others only at copies that are neither interior nor
border (at the artificial boundary of the subdomain). -/
structure Constrained (L : Layout) (cc : Nat → List Nat) (fixed : Nat → Nat → Prop) : Prop where
  everywhere : ∀ p, p < L.procs → ∀ c ∈ L.copies p, ∀ k i : Nat, c.dofs[k]? = some i → fixed c.ent k → i ∈ cc p
  inner : ∀ p, p < L.procs → ∀ c ∈ L.copies p, c.ib = true → ∀ k i : Nat, c.dofs[k]? = some i → i ∈ cc p → fixed c.ent k

/-- The solver of a process depends on the entries of its vector only. -/
def LocalSolvers (L : Layout) (solve : Nat → (Nat → K) → Nat → K) : Prop :=
  ∀ p, p < L.procs → ∀ d d' : Nat → K, (∀ i, i < L.size p → d i = d' i) → ∀ i, i < L.size p → solve p d i = solve p d' i

end

end Verif.KrylovSolvers.Spec
