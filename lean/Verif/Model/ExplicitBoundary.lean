import Verif.Model.OneStepMethod
import Mathlib.Algebra.Module.Pi
/-
Model of the explicit one step method with a boundary function, a limiter and the change of the scheme.
Source: dune/pdelab/instationary/explicitonestep.hh.
-/
namespace Verif.OneStep

/-- explicitonestep.hh:504-505, 712-719  what `apply` works with: the scheme, the arguments `time` and `dt`, the suggestion of the time
controller, the constrained DOFs, the interpolation of the boundary function at a time, the assembler (`explicit_jacobian_residual`: matrix,
`beta`, `alpha`, from the vectors of the stages), the product of matrix and vector, the linear solver (matrix, start vector, right-hand side) and
the two methods of the limiter. -/
structure BEnv (D K M : Type) where
  scheme : Scheme K
  time : K
  dt : K
  suggested : K
  constrained : D → Bool
  bvals : K → D → K
  asm : Nat → (Nat → D → K) → M × (D → K) × (D → K)
  act : M → (D → K) → D → K
  ls : M → (D → K) → (D → K) → D → K
  pre : (D → K) → D → K
  post : (D → K) → D → K

/-- explicitonestep.hh:505-531  the variables of `apply`: the vectors of the stages (0 is `xold`, `s` is `xnew`), the vector `update`, which is
kept between the stages, and the local copy of `dt`. -/
structure BSt (D K : Type) where
  mem : Nat → D → K
  update : D → K
  dt : K

variable {D K M : Type} [Field K] [LinearOrder K]

/-- explicitonestep.hh:599-674  one stage: limiter on the old stage, boundary values at the stage time of the given `dt` (the assembler keeps the
`dt` of `preStep`, line 557), assembly, selection of the step in stage 1, solution in residual form, limiter on the new stage. -/
def bStage (E : BEnv D K M) (S : BSt D K) (r : Nat) : BSt D K :=
  let mem := upd S.mem (r - 1) (E.pre (S.mem (r - 1)))
  let mem := initInterpolate E.constrained (fun r => E.bvals (E.time + E.scheme.d r * E.dt)) E.scheme.s r mem
  let out := E.asm r mem
  let dt := if r = 1 then chooseDt E.suggested S.dt else S.dt
  let alpha : D → K := fun d => out.2.2 d + dt * out.2.1 d
  let residual : D → K := fun d => if E.constrained d then 0 else E.act out.1 (mem r) d - alpha d
  let update := E.ls out.1 S.update residual
  ⟨upd mem r (E.post (fun d => mem r d - update d)), update, dt⟩

/-- explicitonestep.hh:504-699  `apply` with a boundary function and a limiter: the vectors of the stages and the step that is returned. -/
def bApply (E : BEnv D K M) (mem : Nat → D → K) : (Nat → D → K) × K :=
  let out := (List.range' 1 E.scheme.s).foldl (bStage E) ⟨mem, fun _ => 0, E.dt⟩
  (out.mem, out.dt)

/-- onestep.hh:181-195 and default/jacobianengine.hh:207-208 for operator 1 (which does the post processing, gridoperator.hh:133): the matrix of
`explicit_jacobian_residual` gets trivial rows at the constrained DOFs (`triv`). -/
def bAsm [AddCommGroup M] [Module K M] (S : Scheme K) (time dt : K) (R0 R1 : Op K (D → K) (D → K)) (J1 : Op K (D → K) M) (triv : M → M)
    (trace : List (Kind × Nat)) (st : St K (D → K) (D → K)) (r : Nat) (y : Nat → D → K) : M × (D → K) × (D → K) :=
  let out := explicitJacobianResidual ⟨S, time, dt, .doNotAssembleDT, r⟩ R0 R1 J1 y trace st 0
  (triv out.1, out.2.1, out.2.2)

/-- explicitonestep.hh:158-177 and 220-238  the constructors throw (`none`) for an implicit scheme. The object is reduced to its scheme. -/
def exConstruct (S : Scheme K) : Option (Scheme K) := if S.implicit then none else some S

/-- explicitonestep.hh:278-283  `setMethod`: the pointer is replaced before the check. Returns whether it throws and the scheme of the object. -/
def exSetMethod (_ S : Scheme K) : Bool × Scheme K := (S.implicit, S)

end Verif.OneStep
