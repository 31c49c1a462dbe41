import Verif.Model.FiniteElements
/-
Model of the L2-orthonormal polynomial bases: dune/pdelab/finiteelement/l2orthonormal.hh.

A multiindex is a list of length `d`. A point is a function from the number of the coordinate. Matrices and vectors are functions
of their indices. Template parameters are arguments. The types `FieldType` and `ComputationFieldType` are one field `K`, with a
function `sqrt`: the rounding when coefficients are stored is not modelled. Integers do not overflow.
-/
namespace Verif.OPB
open FE (setAt)

/-! ## Multiindices -/

/-- l2orthonormal.hh:62-70  `pk_size(k,d)`. (Dimension 0 is not used; the recursion of the code does not end for it.) -/
def pkSize : (d k : Nat) → Nat
  | _, 0 => 1
  | 0, _ + 1 => 1
  | 1, k + 1 => k + 2
  | d + 2, k + 1 => (List.range (k + 2)).foldl (fun n j => n + pkSize (d + 1) (k + 1 - j)) 0

/-- l2orthonormal.hh:73-79  `pk_size_exact(k,d)`. -/
def pkSizeExact (d k : Nat) : Nat := if k = 0 then 1 else pkSize d k - pkSize d (k - 1)

/-- l2orthonormal.hh:92-114  `pk_enumerate_multiindex`: `n` is `d - dim`, `alpha` the entries of the multiindex from `dim` on. The
result is these entries and `count`. The third component of the state of the loop says that it was left. -/
def pkEnumerate (i : Int) : (n : Nat) → (alpha : List Nat) → (count : Int) → (k : Nat) → List Nat × Int
  | 0, alpha, count, _ => (alpha, count)
  | n + 1, alpha, count, k =>
    let count := count + 1
    if count = i then (k :: alpha.tail, count)
    else
      let r := (List.range k).reverse.foldl (fun (st : List Nat × Int × Bool) m =>
        if st.2.2 then st
        else
          let s := pkEnumerate i n st.1.tail st.2.1 (k - m)
          (m :: s.1, s.2, s.2 == i)) (k :: alpha.tail, count, false)
      if r.2.2 then (r.1, r.2.1) else (0 :: r.1.tail, r.2.1)

/-- l2orthonormal.hh:117-130  `pk_multiindex(i,alpha)`. `none`: the exception. -/
def pkMultiindex (d i : Nat) : Option (List Nat) :=
  if i = 0 then some (List.replicate d 0)
  else
    match (List.range' 1 24).find? fun k => decide (i ≥ pkSize d (k - 1) ∧ i < pkSize d k) with
    | some k => some (pkEnumerate ((i : Int) - (pkSize d (k - 1) : Int)) d (List.replicate d 0) (-1) k).1
    | none => none

/-- l2orthonormal.hh:133-139  `qk_size(k,d)`. -/
def qkSize (d k : Nat) : Nat := (List.range d).foldl (fun n _ => n * (k + 1)) 1

/-- l2orthonormal.hh:142-149  `qk_multiindex(i,k,alpha)`. -/
def qkMultiindex (k : Nat) : (d i : Nat) → List Nat
  | 0, _ => []
  | d + 1, i => i % (k + 1) :: qkMultiindex k d (i / (k + 1))

/-- l2orthonormal.hh:154-156  `BasisType`. -/
inductive BasisType
  | Pk
  | Qk

/-- l2orthonormal.hh:161-222  `BasisTraits::size`. -/
def basisSize : BasisType → (d k : Nat) → Nat
  | .Pk, d, k => pkSize d k
  | .Qk, d, k => qkSize d k

/-- l2orthonormal.hh:161-222  `BasisTraits::multiindex`. -/
def basisMultiindex : BasisType → (d k i : Nat) → Option (List Nat)
  | .Pk, d, _, i => pkMultiindex d i
  | .Qk, d, k, i => some (qkMultiindex k d i)

/-! ## Integrals of monomials -/

/-- l2orthonormal.hh:229-251  `binomial(n,k)`. -/
def binomial (n k : Nat) : Nat :=
  if 2 * k ≥ n then
    (List.range' (k + 1) (n - k)).foldl (· * ·) 1 / (List.range' 2 (n - k - 1)).foldl (· * ·) 1
  else
    (List.range' (n - k + 1) k).foldl (· * ·) 1 / (List.range' 2 (k - 1)).foldl (· * ·) 1

/-- The reference elements with a `GeometryType::BasicType`; only cubes and simplices have integrals.
Used for `integrator`, l2orthonormal.hh:259-357. -/
inductive Shape
  | cube
  | simplex
  | other

section Field
variable {K : Type} [Field K]

/-- l2orthonormal.hh:313-321, 336-344, 345-353  the loop of the integrals over simplices: the sum over `k ≤ m` of
`sign * binomial(m,k) / (a0+k+1)`. -/
def alternatingSum (a0 m : Nat) : K :=
  (List.range (m + 1)).foldl (fun sum k =>
    sum + (((if k % 2 = 1 then (-1 : Int) else 1) * (binomial m k : Int) : Int) : K) / ((a0 : K) + (k : K) + 1)) 0

/-- l2orthonormal.hh:259-357  `MonomialIntegrator<..,bt,d>::integrate(a)`. `none`: the exception of the version that is not
specialised. -/
def integrator : Shape → (d : Nat) → Option (List Nat → K)
  | .cube, d => some fun a => (List.range d).foldl (fun r i => r / ((a.getD i 0 : K) + 1)) 1
  | .simplex, 1 => some fun a => 1 / ((a.getD 0 0 : K) + 1)
  | .simplex, 2 => some fun a => alternatingSum (a.getD 0 0) (a.getD 1 0 + 1) / ((a.getD 1 0 : K) + 1)
  | .simplex, 3 => some fun a =>
      alternatingSum (a.getD 1 0) (a.getD 2 0 + 1) * alternatingSum (a.getD 0 0) (a.getD 1 0 + a.getD 2 0 + 2) /
        ((a.getD 2 0 : K) + 1)
  | _, _ => none

/-- l2orthonormal.hh:364-388  `MonomialEvaluate<F,d-1>::compute(x,a)`; in dimension 0 it does not exist. -/
def monomialEvaluate (x : Nat → K) (a : List Nat) : (d : Nat) → K
  | 0 => 1
  | 1 => (List.range (a.getD 0 0)).foldl (fun prod _ => prod * x 0) 1
  | d + 2 => (List.range (a.getD (d + 1) 0)).foldl (fun prod _ => prod * x (d + 1)) 1 * monomialEvaluate x a (d + 1)

/-! ## Orthonormalisation -/

/-- l2orthonormal.hh:626, 636  the exponents of a product of monomials. -/
def addIndex (a b : List Nat) : List Nat := List.zipWith (· + ·) a b

/-- l2orthonormal.hh:619-631  the body of the loop over `j`, for row `i`: state `bi` and `c`. -/
def gsProject (integ : List Nat → K) (alpha : Nat → List Nat) (i : Nat) (st : (Nat → K) × (Nat → Nat → K)) (j : Nat) :
    (Nat → K) × (Nat → Nat → K) :=
  let b := (List.range (j + 1)).foldl (fun s l => s + st.2 j l * integ (addIndex (alpha i) (alpha l))) 0
  (setAt st.1 j b,
   (List.range (j + 1)).foldl (fun c l => setAt c i (setAt (c i) l (c i l - b * c j l))) st.2)

/-- l2orthonormal.hh:613-645  the body of the loop over `i`. -/
def gsRow (sqrt : K → K) (integ : List Nat → K) (alpha : Nat → List Nat) (c : Nat → Nat → K) (i : Nat) : Nat → Nat → K :=
  let st := (List.range i).foldl (gsProject integ alpha i) (fun _ => 0, c)
  let s2 := (List.range i).foldl (fun s2 j => s2 - st.1 j * st.1 j) (0 + integ (addIndex (alpha i) (alpha i)))
  let s := 1 / sqrt s2
  (List.range (i + 1)).foldl (fun c l => setAt c i (setAt (c i) l (s * c i l))) st.2

/-- l2orthonormal.hh:597-655  `gram_schmidt()`: the coefficients. -/
def gramSchmidt (sqrt : K → K) (integ : List Nat → K) (alpha : Nat → List Nat) (n : Nat) : Nat → Nat → K :=
  (List.range n).foldl (gsRow sqrt integ alpha) fun i j => if i = j then 1 else 0

/-- l2orthonormal.hh:585-595  `invert_index(a)`. `none`: the exception. -/
def invertIndex (alpha : Nat → List Nat) (n : Nat) (a : List Nat) : Option Nat :=
  (List.range n).find? fun i => decide (a = alpha i)

/-- l2orthonormal.hh:559-562  the loops over `i`, `j` and `s`. -/
def triples (n d : Nat) : List (Nat × Nat × Nat) :=
  (List.range n).flatMap fun i => (List.range (i + 1)).flatMap fun j => (List.range d).map fun s => (i, j, s)

/-- l2orthonormal.hh:562-569  the body of these loops; `g s i l` is `gradcoeffs[s][i][l]`. -/
def gradStep (alpha : Nat → List Nat) (n : Nat) (c : Nat → Nat → K) (g : Nat → Nat → Nat → K) (t : Nat × Nat × Nat) :
    Option (Nat → Nat → Nat → K) :=
  let (i, j, s) := t
  let a := (alpha j).getD s 0
  if a > 0 then
    match invertIndex alpha n ((alpha j).set s (a - 1)) with
    | none => none
    | some l => some (setAt g s (setAt (g s) i (setAt (g s i) l (g s i l + c i j * (a : K)))))
  else some g

/-- l2orthonormal.hh:555-569  the coefficients of the gradients; `garbage` is what `gradcoeffs` held before. -/
def gradCoefficients (alpha : Nat → List Nat) (n d : Nat) (c : Nat → Nat → K) (garbage : Nat → Nat → Nat → K) :
    Option (Nat → Nat → Nat → K) :=
  (triples n d).foldlM (gradStep alpha n c) fun s i j => if s < d ∧ i < n ∧ j ≤ i then 0 else garbage s i j

/-- l2orthonormal.hh:419-656  `OrthonormalPolynomialBasis`: its template parameters and members. -/
structure Basis (K : Type) where
  type : BasisType
  d : Nat
  k : Nat
  n : Nat
  alpha : Nat → List Nat
  coeffs : Nat → Nat → K
  gradcoeffs : Nat → Nat → Nat → K

/-- l2orthonormal.hh:428-461, 540-582  the constructor. `none`: an exception. (The integrator is called at least once, as `n` is
not 0.) -/
def construct (sqrt : K → K) (shape : Shape) (type : BasisType) (d k : Nat) (garbage : Nat → Nat → Nat → K) :
    Option (Basis K) :=
  let n := basisSize type d k
  match (List.range n).mapM (basisMultiindex type d k), integrator (K := K) shape d with
  | some alphas, some integ =>
    let alpha := fun i => alphas.getD i []
    let c := gramSchmidt sqrt integ alpha n
    match gradCoefficients alpha n d c garbage with
    | some g => some { type, d, k, n, alpha, coeffs := c, gradcoeffs := g }
    | none => none
  | _, _ => none

/-- l2orthonormal.hh:469-480  `evaluateFunction(x,r)`. -/
def evaluateFunction (b : Basis K) (x : Nat → K) : List K :=
  let r := (List.range b.n).foldl (fun r j =>
    let value := monomialEvaluate x (b.alpha j) b.d
    (List.range' j (b.n - j)).foldl (fun r i => setAt r i (r i + b.coeffs i j * value)) r) fun _ => 0
  (List.range b.n).map r

/-- l2orthonormal.hh:482-495  `evaluateJacobian(x,r)`: the gradients. -/
def evaluateJacobian (b : Basis K) (x : Nat → K) : List (List K) :=
  let r := (List.range b.n).foldl (fun r j =>
    let value := monomialEvaluate x (b.alpha j) b.d
    (List.range' j (b.n - j)).foldl (fun r i =>
      (List.range b.d).foldl (fun r s => setAt r i (setAt (r i) s (r i s + b.gradcoeffs s i j * value))) r) r) fun _ _ => 0
  (List.range b.n).map fun i => (List.range b.d).map (r i)

/-- l2orthonormal.hh:497-511  `evaluateFunction(l,x,r)`: the values it writes. `none`: the exception. -/
def evaluateFunctionOrder (b : Basis K) (l : Nat) (x : Nat → K) : Option (List K) :=
  if l > b.k then none
  else some <| (List.range (basisSize b.type b.d l)).map fun i =>
    (List.range (i + 1)).foldl (fun sum j => sum + b.coeffs i j * monomialEvaluate x (b.alpha j) b.d) 0

/-- l2orthonormal.hh:513-531  `evaluateJacobian(l,x,r)`: the gradients it writes. -/
def evaluateJacobianOrder (b : Basis K) (l : Nat) (x : Nat → K) : Option (List (List K)) :=
  if l > b.k then none
  else some <| (List.range (basisSize b.type b.d l)).map fun i => (List.range b.d).map fun s =>
    (List.range (i + 1)).foldl (fun sum j => sum + b.gradcoeffs s i j * monomialEvaluate x (b.alpha j) b.d) 0

/-- l2orthonormal.hh:741-784  `OPBLocalInterpolation::interpolate`; `rule` is the list of (position, weight) of the rule of order
2k. -/
def interpolate (b : Basis K) (rule : List ((Nat → K) × K)) (f : (Nat → K) → K) : List K :=
  rule.foldl (fun out xw =>
    let y := f xw.1
    let phi := evaluateFunction b xw.1
    (List.range b.n).map fun i => out.getD i 0 + y * phi.getD i 0 * xw.2) (List.replicate b.n 0)

end Field
end Verif.OPB
