import Verif.Model.BlockOperators
import Verif.Spec.CCFV
import Verif.Spec.LocalOperator
/-
Vocabulary for the properties of the block operators.
-/
namespace Verif.BlockOp.Spec

open GridAssembler LocalOp LocalOp.Spec

variable {K : Type} [Field K]

/-- The face `f` lies between the cells `c` and `o`. -/
def IsFace (allPartitions : Bool) (cells : List Cell) (c f o : Nat) : Prop :=
  ∃ cell ∈ cells, cell.id = c ∧ ∃ i ∈ cell.isects, IsInterior allPartitions i ∧ i.face = f ∧ i.outside = o

/-- The same block, seen from the other cell. -/
def swap : Block → Block
  | .ss => .nn
  | .sn => .ns
  | .ns => .sn
  | .nn => .ss

/-- What the skeleton term adds to the entry `(a,b)` of a block at the face `f`, seen from `c`. -/
def faceBlock (lop : Lop K) (x : GDof → K) (c f index o : Nat) (blk : Block) (a b : LDof) : K :=
  total (lop.jacobianSkeleton ⟨c, f, index, o⟩ c (fun a => x (c, a)) o (fun a => x (o, a))) (blk, a, b)

/-- The skeleton term is the same from whichever cell a face is visited. -/
def SideSymmetric (allPartitions : Bool) (cells : List Cell) (lop : Lop K) (x : GDof → K) : Prop :=
  ∀ c f o, IsFace allPartitions cells c f o → ∀ index index' blk a b,
    faceBlock lop x c f index o blk a b = faceBlock lop x o f index' c (swap blk) a b

/-- The skeleton term of an operator that asks to be called from both sides contributes to the rows of the inside cell
only. -/
def InsideOnly (allPartitions : Bool) (cells : List Cell) (lop : Lop K) (x : GDof → K) : Prop :=
  ∀ c f o, IsFace allPartitions cells c f o → ∀ index a b,
    faceBlock lop x c f index o .ns a b = 0 ∧ faceBlock lop x c f index o .nn a b = 0

/-- The skeleton term does not depend on the number of the intersection. -/
def IndexFree (ap : Bool) (cells : List Cell) (lop : Lop K) (x : GDof → K) : Prop :=
  ∀ c f o, IsFace ap cells c f o → ∀ index blk a b, faceBlock lop x c f index o blk a b = faceBlock lop x c f 0 o blk a b

/-- The operator is either called once for each face, and then it does not matter from which cell, or it is called from both
cells, and then it contributes to the rows of the cell it is called from. -/
def Assembled (ap : Bool) (cells : List Cell) (lop : Lop K) (x : GDof → K) : Prop :=
  (lop.twoSided = false ∧ SideSymmetric ap cells lop x) ∨
  (lop.twoSided = true ∧ InsideOnly ap cells lop x ∧ IndexFree ap cells lop x)

/-- The matrix that `GridOperator::jacobian` assembles. -/
def matrix (allPartitions : Bool) (cells : List Cell) (lop : Lop K) (x : GDof → K) (g h : GDof) : K :=
  total (jacobianCalls allPartitions cells lop x) (g, h)

/-- Row times vector. -/
def dot {D : Type} (dofs : List D) (row z : D → K) : K := (dofs.map fun b => row b * z b).sum

/-- All degrees of freedom, `dofs c` being those of the cell `c`. -/
def allDofs (cells : List Cell) (dofs : Nat → List LDof) : List GDof :=
  cells.flatMap fun c => (dofs c.id).map fun a => (c.id, a)

/-- The matrix-free applications of the local operator multiply by its Jacobians (and do not throw when the overload fits). -/
structure ApplyIsJacobian (lop : Lop K) (dofs : Nat → List LDof) : Prop where
  volume : ∀ c x z, ∃ l, lop.applyVolume c (linPoint lop x) z = some l ∧
    ∀ a, total l a = dot (dofs c) (fun b => total (lop.jacobianVolume c x) (a, b)) z
  skeleton : ∀ ig c xs zs o xn zn, ∃ l,
    lop.applySkeleton ig c (linPoint lop xs) zs o (linPoint lop xn) zn = some l ∧
    (∀ a, total l (.s, a) = dot (dofs c) (fun b => total (lop.jacobianSkeleton ig c xs o xn) (.ss, a, b)) zs +
      dot (dofs o) (fun b => total (lop.jacobianSkeleton ig c xs o xn) (.sn, a, b)) zn) ∧
    (∀ a, total l (.n, a) = dot (dofs c) (fun b => total (lop.jacobianSkeleton ig c xs o xn) (.ns, a, b)) zs +
      dot (dofs o) (fun b => total (lop.jacobianSkeleton ig c xs o xn) (.nn, a, b)) zn)
  boundary : ∀ ig c x z, ∃ l, lop.applyBoundary ig c (linPoint lop x) z = some l ∧
    ∀ a, total l a = dot (dofs c) (fun b => total (lop.jacobianBoundary ig c x) (a, b)) z

/-- The diagonal block of the skeleton term depends neither on the coefficients nor on the space of the other cell. -/
def LocalDiagonal (lop : Lop K) : Prop :=
  ∀ ig c xs o xn o' xn' a b,
    total (lop.jacobianSkeleton ig c xs o xn) (.ss, a, b) = total (lop.jacobianSkeleton ig c xs o' xn') (.ss, a, b)

/-- The operator has all three kinds of terms, and no others. -/
structure PlainTerms (lop : Lop K) : Prop where
  volume : lop.doAlphaVolume = true
  skeleton : lop.doAlphaSkeleton = true
  boundary : lop.doAlphaBoundary = true
  post : lop.doAlphaVolumePostSkeleton = false

/-- No Jacobian couples two components of a system: the two indices of each call belong to the same leaf space. -/
structure NoCoupling (lop : Lop K) : Prop where
  volume : ∀ c x, ∀ q ∈ lop.jacobianVolume c x, q.1.1.1 = q.1.2.1
  skeleton : ∀ ig c xs o xn, ∀ q ∈ lop.jacobianSkeleton ig c xs o xn, q.1.2.1.1 = q.1.2.2.1
  boundary : ∀ ig c x, ∀ q ∈ lop.jacobianBoundary ig c x, q.1.1.1 = q.1.2.1

/-- No periodic boundaries. -/
def NotPeriodic (c : Cell) : Prop := ∀ i ∈ c.isects, ¬ (i.neighbor = true ∧ i.boundary = true)

end Verif.BlockOp.Spec
