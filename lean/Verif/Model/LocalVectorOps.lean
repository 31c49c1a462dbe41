import Mathlib.Algebra.Ring.Defs
/-
Model of the arithmetic of local vectors, dune/pdelab/gridfunctionspace/localvector.hh:178-360. A local vector is its container; an operation
that would read outside of a container is undefined and gives `none`. Numbers are elements of a ring.
-/
namespace Verif.LocalVectorOps

variable {K : Type} [Ring K]

/-- `std::transform` of the own container and that of the other vector into the own one; reads as many entries of the other one as the own one
has. Used for `axpy` and `operator+=`, localvector.hh:255-281. -/
def transform (op : K → K → K) : List K → List K → Option (List K)
  | [], _ => some []
  | _ :: _, [] => none
  | a :: as, b :: bs => (transform op as bs).map (op a b :: ·)

/-- localvector.hh:255-264  `axpy`. -/
def axpy (alpha : K) (v w : List K) : Option (List K) := transform (fun a b => a + alpha * b) v w

/-- localvector.hh:266-271  assignment of a number. -/
def fill (x : K) (v : List K) : List K := v.map fun _ => x

/-- localvector.hh:273-281  `operator+=`. -/
def add (v w : List K) : Option (List K) := transform (· + ·) v w

/-- localvector.hh:283-294  `operator*=`. -/
def scale (x : K) (v : List K) : List K := v.map (x * ·)

/-- `std::inner_product` from an initial value. Used for `dot` and `two_norm`, localvector.hh:296-315. -/
def innerProduct : List K → List K → K → Option K
  | [], _, acc => some acc
  | _ :: _, [], _ => none
  | a :: as, b :: bs, acc => innerProduct as bs (acc + a * b)

/-- localvector.hh:296-304  `dot`. -/
def dot (v w : List K) : Option K := innerProduct v w 0

/-- localvector.hh:306-315  `two_norm`; the square root is a parameter. -/
def twoNorm (sqrt : K → K) (v : List K) : Option K := (innerProduct v v 0).map sqrt

/-- localvector.hh:323-327  `resize` (`std::vector::resize`: new entries are zero). -/
def resize (n : Nat) (v : List K) : List K := v.take n ++ List.replicate (n - v.length) 0

/-- localvector.hh:329-333  `assign`. -/
def assign (n : Nat) (x : K) (_ : List K) : List K := List.replicate n x

end Verif.LocalVectorOps
