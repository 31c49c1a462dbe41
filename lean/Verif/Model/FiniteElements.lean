import Mathlib.Algebra.Field.Basic
import Mathlib.Order.Defs.LinearOrder
/-
Model of the tensor product finite elements on cubes: dune/pdelab/finiteelement/qkdglagrange.hh (equidistant Lagrange
points), qkdglobatto.hh (Gauss-Lobatto points), qkdglegendre.hh (Legendre polynomials), and of the cache
localbasiscache.hh.

A point is a function from the number of the coordinate; only the coordinates below the dimension are used. Template
parameters are arguments. Quadrature rules of dune-geometry are arguments.
-/
namespace Verif.FE

/-- qkdglagrange.hh:22-52  `QkSize<k,n>` and qkdglegendre.hh:31-61 `LegendreSize<k,n>`. (Dimension 0 cannot be instantiated in
the code.) -/
def qkSize (k : Nat) : Nat → Nat
  | 0 => 1
  | 1 => k + 1
  | n + 2 => if k = 0 then 1 else (k + 1) * qkSize k (n + 1)

/-- qkdglagrange.hh:118-128 and qkdglegendre.hh:63-73  `multiindex<k,d>(i)`. -/
def multiindex (k : Nat) : (d i : Nat) → List Nat
  | 0, _ => []
  | d + 1, i => i % (k + 1) :: multiindex k d (i / (k + 1))

section Field
variable {K : Type} [Field K]

/-- qkdglagrange.hh:54-62, 86-93  `p(i,x)`. -/
def lagrangeP (k i : Nat) (x : K) : K :=
  (List.range (k + 1)).foldl (fun r j => if j ≠ i then r * (((k : K) * x - (j : K)) / ((i : K) - (j : K))) else r) 1

/-- qkdglagrange.hh:64-79, 95-109  `dp(i,x)`. -/
def lagrangeDp (k i : Nat) (x : K) : K :=
  (List.range (k + 1)).foldl (fun result j =>
    if j ≠ i then
      result + (List.range (k + 1)).foldl (fun prod l =>
        if l ≠ i ∧ l ≠ j then prod * (((k : K) * x - (l : K)) / ((i : K) - (l : K))) else prod) ((k : K) / ((i : K) - (j : K)))
    else result) 0

/-- qkdglagrange.hh:111-115  `EquidistantLagrangePolynomials::x(i)`. -/
def equidistantX (k i : Nat) : K := (i : K) / ((k : K) + 1)

/-- qkdglobatto.hh:73-80  `GaussLobattoLagrangePolynomials::p(i,x)`; `xi` is the array of the points. -/
def lobattoP (xi : Nat → K) (k i : Nat) (x : K) : K :=
  (List.range (k + 1)).foldl (fun r j => if j ≠ i then r * ((x - xi j) / (xi i - xi j)) else r) 1

/-- qkdglobatto.hh:82-96  `GaussLobattoLagrangePolynomials::dp(i,x)`. -/
def lobattoDp (xi : Nat → K) (k i : Nat) (x : K) : K :=
  (List.range (k + 1)).foldl (fun result j =>
    if j ≠ i then
      result + (List.range (k + 1)).foldl (fun prod l =>
        if l ≠ i ∧ l ≠ j then prod * ((x - xi l) / (xi i - xi l)) else prod) (1 / (xi i - xi j))
    else result) 0

/-- `a[i] = v` for an array. Used for `lobattoPlace`, qkdglobatto.hh:45-55. -/
def setAt {α : Type} (a : Nat → α) (i : Nat) (v : α) : Nat → α := fun j => if j = i then v else a j

/-- qkdglobatto.hh:45-55  the points and weights of the rule are distributed over the arrays; `rule` is the list of (position,
weight), `count` the number of the first of them. -/
def lobattoPlace (k : Nat) : (count : Nat) → (rule : List (K × K)) → (Nat → K × K) → (Nat → K × K)
  | _, [], a => a
  | count, pw :: rule, a =>
    lobattoPlace k (count + 1) rule (setAt a (if count % 2 = 1 then count / 2 else k - count / 2) pw)

/-- qkdglobatto.hh:56-65  points in the right half are exchanged with their mirror images; `half` is the test `> 0.5`. -/
def lobattoSwap (k size : Nat) (half : K → Bool) (a : Nat → K × K) : Nat → K × K :=
  (List.range (size / 2)).foldl (fun a j => if half (a j).1 then setAt (setAt a j (a (k - j))) (k - j) (a j) else a) a

/-- qkdglobatto.hh:28-71  the constructor: `rules order` is the Gauss-Lobatto rule of dune-geometry for an order. `none`: the
exception. -/
def lobattoPoints (k : Nat) (rules : Nat → List (K × K)) (half : K → Bool) (uninitialised : Nat → K × K) :
    Option (Nat → K × K) :=
  match (List.range' 1 40).find? fun order => (rules order).length = k + 1 with
  | none => none
  | some order => some (lobattoSwap k (k + 1) half (lobattoPlace k 0 (rules order) uninitialised))

/-- qkdglegendre.hh:80-88, 143-148, 183-189  `p(x,value)`. -/
def legendreValues (x : K) : (k : Nat) → List K
  | 0 => [1]
  | k + 1 => (List.range' 2 k).foldl (fun v (n : Nat) =>
      v ++ [((2 * (n : K) - 1) * (2 * x - 1) * v.getD (n - 1) 0 - ((n : K) - 1) * v.getD (n - 2) 0) / (n : K)]) [1, 2 * x - 1]

/-- qkdglegendre.hh:114-128, 169-176, 211-220  `pdp(x,value,derivative)`; also `dp(x,derivative)`, lines 98-112, 156-161,
197-203. -/
def legendreValuesDerivatives (x : K) : (k : Nat) → List K × List K
  | 0 => ([1], [0])
  | k + 1 => (List.range' 2 k).foldl (fun vd (n : Nat) =>
      (vd.1 ++ [((2 * (n : K) - 1) * (2 * x - 1) * vd.1.getD (n - 1) 0 - ((n : K) - 1) * vd.1.getD (n - 2) 0) / (n : K)],
       vd.2 ++ [(2 * x - 1) * vd.2.getD (n - 1) 0 + 2 * (n : K) * vd.1.getD (n - 1) 0])) ([1, 2 * x - 1], [0, 2])

/-- qkdglegendre.hh:90-96, 150-154, 191-195  `p(i,x)`. -/
def legendreP (k i : Nat) (x : K) : K :=
  match k with
  | 0 => 1
  | 1 => (1 - (i : K)) + (i : K) * (2 * x - 1)
  | k => (legendreValues x k).getD i 0

/-- qkdglegendre.hh:130-136, 163-167, 205-209  `dp(i,x)`. -/
def legendreDp (k i : Nat) (x : K) : K :=
  match k with
  | 0 => 0
  | 1 => (1 - (i : K)) * 0 + (i : K) * 2
  | k => (legendreValuesDerivatives x k).2.getD i 0

/-- qkdglagrange.hh:155-172, qkdglobatto.hh:138-155 and qkdglegendre.hh:255-277  `evaluateFunction`: `p j a` is the value of the
one-dimensional function `a` at the coordinate `j` of the point. -/
def tensorFunction (k d : Nat) (p : Nat → Nat → K) : List K :=
  (List.range (qkSize k d)).map fun i =>
    let alpha := multiindex k d i
    (List.range d).foldl (fun r j => r * p j (alpha.getD j 0)) 1

/-- qkdglagrange.hh:174-200, qkdglobatto.hh:157-183 and qkdglegendre.hh:279-308  `evaluateJacobian`: `dp j a` is the derivative
of the one-dimensional function `a` at the coordinate `j`. The result lists the gradients. -/
def tensorJacobian (k d : Nat) (p dp : Nat → Nat → K) : List (List K) :=
  (List.range (qkSize k d)).map fun i =>
    let alpha := multiindex k d i
    (List.range d).map fun j =>
      (List.range d).foldl (fun r l => if l ≠ j then r * p l (alpha.getD l 0) else r) (dp j (alpha.getD j 0))

/-- qkdglagrange.hh:155-172  `QkLocalBasis::evaluateFunction`. -/
def lagrangeFunction (k d : Nat) (x : Nat → K) : List K := tensorFunction k d fun j a => lagrangeP k a (x j)

/-- qkdglagrange.hh:174-200  `QkLocalBasis::evaluateJacobian`. -/
def lagrangeJacobian (k d : Nat) (x : Nat → K) : List (List K) :=
  tensorJacobian k d (fun j a => lagrangeP k a (x j)) fun j a => lagrangeDp k a (x j)

/-- qkdglagrange.hh:255-297  `QkLocalInterpolation::interpolate`. -/
def lagrangeInterpolate (k d : Nat) (f : (Nat → K) → K) : List K :=
  if k = 0 then [f fun _ => 1 / 2]
  else (List.range (qkSize k d)).map fun i => f fun j => ((multiindex k d i).getD j 0 : K) / (k : K)

/-- qkdglobatto.hh:138-155  `QkGLLocalBasis::evaluateFunction`. -/
def lobattoFunction (xi : Nat → K) (k d : Nat) (x : Nat → K) : List K := tensorFunction k d fun j a => lobattoP xi k a (x j)

/-- qkdglobatto.hh:157-183  `QkGLLocalBasis::evaluateJacobian`. -/
def lobattoJacobian (xi : Nat → K) (k d : Nat) (x : Nat → K) : List (List K) :=
  tensorJacobian k d (fun j a => lobattoP xi k a (x j)) fun j a => lobattoDp xi k a (x j)

/-- qkdglobatto.hh:204-247  `QkGLLocalInterpolation::interpolate`. -/
def lobattoInterpolate (xi : Nat → K) (k d : Nat) (f : (Nat → K) → K) : List K :=
  if k = 0 then [f fun _ => 1 / 2]
  else (List.range (qkSize k d)).map fun i => f fun j => xi ((multiindex k d i).getD j 0)

/-- qkdglegendre.hh:255-277  `DGLegendreLocalBasis::evaluateFunction`. -/
def legendreFunction (k d : Nat) (x : Nat → K) : List K := tensorFunction k d fun j a => (legendreValues (x j) k).getD a 0

/-- qkdglegendre.hh:279-308  `DGLegendreLocalBasis::evaluateJacobian`. -/
def legendreJacobian (k d : Nat) (x : Nat → K) : List (List K) :=
  tensorJacobian k d (fun j a => (legendreValuesDerivatives (x j) k).1.getD a 0)
    fun j a => (legendreValuesDerivatives (x j) k).2.getD a 0

/-- qkdglegendre.hh:344-380  `DGLegendreLocalInterpolation::interpolate`; `rule` is the list of (position, weight) of the rule of
order 2k. -/
def legendreInterpolate (k d : Nat) (rule : List ((Nat → K) × K)) (f : (Nat → K) → K) : List K :=
  let n := qkSize k d
  let r := rule.foldl (fun (od : List K × List K) xw =>
    let y := f xw.1
    let phi := legendreFunction k d xw.1
    ((List.range n).map fun i => od.1.getD i 0 + y * phi.getD i 0 * xw.2,
     (List.range n).map fun i => od.2.getD i 0 + phi.getD i 0 * phi.getD i 0 * xw.2)) (List.replicate n 0, List.replicate n 0)
  (List.range n).map fun i => r.1.getD i 0 / r.2.getD i 0

end Field

/-! ## The cache of basis functions -/

section Cache
variable {K : Type} [Field K] [LinearOrder K]

/-- localbasiscache.hh:24-35  `less_than`; `eps` is the literal 1e-5. -/
def lessThan (eps : K) : List K → List K → Bool
  | x :: v1, y :: v2 => if x < y - eps then true else if x > y + eps then false else lessThan eps v1 v2
  | _, _ => false

/-- localbasiscache.hh:37-38  a `std::map` with this comparison. Simplified: the search tree is the list of its entries, and the
entry found is the first one that is neither less nor greater. (If the positions used are such that the comparison is not a
strict weak ordering the standard does not say what happens.) -/
abbrev Cache (K V : Type) := List (List K × V)

/-- localbasiscache.hh:49, 61  `find`. -/
def cacheFind {V : Type} (eps : K) (c : Cache K V) (p : List K) : Option V :=
  (c.find? fun e => !lessThan eps e.1 p && !lessThan eps p e.1).map (·.2)

/-- localbasiscache.hh:45-67  `evaluateFunction` and `evaluateJacobian`, which differ in the map and in the function of the local
basis called: the values and the cache afterwards. -/
def cacheEvaluate {V : Type} (eps : K) (c : Cache K V) (p : List K) (basis : List K → V) : V × Cache K V :=
  match cacheFind eps c p with
  | some v => (v, c)
  | none => (basis p, (p, basis p) :: c)

/-- localbasiscache.hh:69-71  the two maps. -/
structure LocalBasisCache (K V J : Type) where
  functions : Cache K V
  jacobians : Cache K J

/-- A call of the cache: the position and the local basis passed. Used for `cacheStep`, localbasiscache.hh:45-67. -/
inductive CacheCall (K V J : Type)
  | function (position : List K) (basis : List K → V)
  | jacobian (position : List K) (basis : List K → J)

/-- localbasiscache.hh:45-67  one call. -/
def cacheStep {V J : Type} (eps : K) (s : LocalBasisCache K V J) : CacheCall K V J → (V ⊕ J) × LocalBasisCache K V J
  | .function p b => let r := cacheEvaluate eps s.functions p b; (.inl r.1, { s with functions := r.2 })
  | .jacobian p b => let r := cacheEvaluate eps s.jacobians p b; (.inr r.1, { s with jacobians := r.2 })

/-- localbasiscache.hh:42-67  a newly constructed cache and a sequence of calls: the answers. -/
def cacheRun {V J : Type} (eps : K) : LocalBasisCache K V J → List (CacheCall K V J) → List (V ⊕ J)
  | _, [] => []
  | s, q :: qs => let r := cacheStep eps s q; r.1 :: cacheRun eps r.2 qs

end Cache
end Verif.FE
