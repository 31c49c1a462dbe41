import Verif.Spec.VectorOperators
/-
The interior penalty method for the Stokes equations, written down at a point of a face. Independent of the model of the operators.
`A`, `B` are gradients of velocities (row c is the gradient of component c), `u`, `v` velocities, `p`, `q` pressures; the second of each
pair is the test function. `n` is the normal pointing out of the inside cell (S).
-/
namespace Verif.LocalOp.Spec

open Matrix

variable {K : Type} [Field K] {d : Nat}

/-- What a velocity and a pressure are on one side of a point of a face: gradient, value, pressure. -/
structure Trace (K : Type) (d : Nat) where
  grad : Matrix (Fin d) (Fin d) K
  vel : Fin d → K
  pres : K

/-- The trace, at the point `pt` of a cell, of the velocity and the pressure with coefficients `x`. `grad` are the gradients of the basis
functions `phi` of the components of the velocity on the cell, `psi` the basis functions of the pressure. -/
def flowTrace {P : Type} {n m : Nat} (grad : P → Fin n → Fin d → K) (phi : P → Fin n → K) (psi : P → Fin m → K)
    (x : (Fin d × Fin n) ⊕ Fin m → K) (pt : P) : Trace K d :=
  ⟨femGradient grad (x ∘ Sum.inl) pt, femFunction phi (x ∘ Sum.inl) pt, femScalar psi (x ∘ Sum.inr) pt⟩

/-- The same for basis functions `phi` that are vector fields, with Jacobians `jac`. -/
def flowTraceVec {P : Type} {n m : Nat} (jac : P → Fin n → Matrix (Fin d) (Fin d) K) (phi : P → Fin n → Fin d → K)
    (psi : P → Fin m → K) (x : Fin n ⊕ Fin m → K) (pt : P) : Trace K d :=
  ⟨∑ i, x (.inl i) • jac pt i, ∑ i, x (.inl i) • phi pt i, femScalar psi (x ∘ Sum.inr) pt⟩

/-- The viscous traction σ(u)n. -/
def traction (full : Bool) (mu : K) (n : Fin d → K) (t : Trace K d) : Fin d → K := viscousStress full mu t.grad *ᵥ n

/-- The terms on a face between two cells: -{σ(u)}n·[v] + ε {σ(v)}n·[u] + μγ [u]·[v] + {p} [v]·n + s {q} [u]·n, with the jump
[u] = u_S - u_N, the mean {u} = (u_S + u_N)/2, the symmetry factor ε, the penalty γ and the scaling s of the incompressibility
condition. -/
def flowFace (full : Bool) (mu penalty eps scale : K) (n : Fin d → K) (uS uN vS vN : Trace K d) : K :=
  -((1 / 2 : K) • (traction full mu n uS + traction full mu n uN) ⬝ᵥ (vS.vel - vN.vel))
    + eps * ((1 / 2 : K) • (traction full mu n vS + traction full mu n vN) ⬝ᵥ (uS.vel - uN.vel))
    + mu * penalty * ((uS.vel - uN.vel) ⬝ᵥ (vS.vel - vN.vel))
    + (uS.pres + uN.pres) / 2 * ((vS.vel - vN.vel) ⬝ᵥ n)
    + scale * ((vS.pres + vN.pres) / 2) * ((uS.vel - uN.vel) ⬝ᵥ n)

/-- The terms on a boundary where the velocity is `g`:
-σ(u)n·v + ε σ(v)n·(u-g) + μγ (u-g)·v + p v·n + s q (u-g)·n. -/
def flowDirichlet (full : Bool) (mu penalty eps scale : K) (n g : Fin d → K) (u v : Trace K d) : K :=
  -(traction full mu n u ⬝ᵥ v.vel) + eps * (traction full mu n v ⬝ᵥ (u.vel - g)) + mu * penalty * ((u.vel - g) ⬝ᵥ v.vel)
    + u.pres * (v.vel ⬝ᵥ n) + scale * v.pres * ((u.vel - g) ⬝ᵥ n)

/-- The terms on a boundary that the fluid slips along, by the proportion `s`: only the normal components of velocity and traction enter
the part with weight s, the whole vectors the part with weight 1-s. -/
def flowSlip (full : Bool) (mu penalty eps scale s : K) (n : Fin d → K) (u v : Trace K d) : K :=
  (1 - s) * (-(traction full mu n u ⬝ᵥ v.vel) + eps * (traction full mu n v ⬝ᵥ u.vel) + mu * penalty * (u.vel ⬝ᵥ v.vel))
    + s * (-((traction full mu n u ⬝ᵥ n) * (v.vel ⬝ᵥ n)) + eps * ((traction full mu n v ⬝ᵥ n) * (u.vel ⬝ᵥ n))
        + mu * penalty * ((u.vel ⬝ᵥ n) * (v.vel ⬝ᵥ n)))
    + u.pres * (v.vel ⬝ᵥ n) + scale * v.pres * (u.vel ⬝ᵥ n)

end Verif.LocalOp.Spec
