import Verif.Model.HangingNode
import Mathlib.Algebra.BigOperators.Group.List.Defs
/-
Vocabulary for the properties of hanging nodes (C44, C81, C82).
-/
namespace Verif.HangingNode.Spec

/-- Ends of an edge of the quadrilateral with the corners a, b (below), c, d (above). -/
def Adjacent (q : List Nat) (v n : Nat) : Prop :=
  ∃ a b c d, q = [a, b, c, d] ∧
    ((v, n) ∈ [(a, b), (a, c), (b, d), (c, d)] ∨ (n, v) ∈ [(a, b), (a, c), (b, d), (c, d)])

/-- Opposite corners of the quadrilateral. -/
def Opposite (q : List Nat) (v n : Nat) : Prop :=
  ∃ a b c d, q = [a, b, c, d] ∧ ((v, n) ∈ [(a, d), (b, c)] ∨ (n, v) ∈ [(a, d), (b, c)])

/-- The face of a side: the indices of its corners, on a grid of dimension `d`. -/
def corners (d : Nat) (s : Side) : List Nat := (s.sub d).map (s.index d)

/-- The states of the corners are those of the vertices. -/
def Consistent (d : Nat) (hang : Nat → Bool) (s : Side) : Prop := ∀ i ∈ s.sub d, s.hanging i = hang (s.index d i)

/-- The coarse and the fine side of an intersection with hanging nodes on the fine side only. -/
structure OneSided (d : Nat) (hang : Nat → Bool) (fine other : Side) : Prop where
  consistent : Consistent d hang fine
  nodup : (corners d fine).Nodup
  hanging : ∃ v ∈ corners d fine, hang v = true
  otherNot : ∀ i ∈ other.sub d, other.hanging i = false

/-- The vertex belongs to the cell. -/
def Contains (c : Cell) (v : Nat) : Prop := v ∈ c.vertices

/-- The vertex is a corner of a non-conforming face of a finer cell (not coarser than the neighbour), whose neighbour has the level. -/
def OnFaceOfCoarser (cells : List Cell) (v level : Nat) : Prop :=
  ∃ c ∈ cells, ∃ f ∈ c.faces, v ∈ f.vertices ∧ f.kind = .nonconforming level ∧ level ≤ c.level

/-- The constraints of a sequence of intersections, each given by the side with hanging nodes, the other side, and whether the former is
the inside one; `none` if an assertion fails. -/
def constraintsOf {K : Type} [Field K] (assemble : Nat → Side → Option (List (Nat × List (Nat × K)))) (gridDim dimension : Nat)
    (faces : List (Side × Side × Bool)) : Option (Constraints.Trafo Nat K) :=
  (faces.mapM fun p : Side × Side × Bool =>
    if p.2.2 then skeletonWith assemble gridDim dimension p.1 p.2.1 else skeletonWith assemble gridDim dimension p.2.1 p.1).map collect

/-- The vertex `v` has exactly one row, and it interpolates the vertices `S` with the weight `w`; the weights have the sum one. -/
def Interpolates {K : Type} [Field K] (cg : Constraints.Trafo Nat K) (v : Nat) (S : List Nat) (w : K) : Prop :=
  ∃ row, (∀ row', (v, row') ∈ cg.rows ↔ row' = row) ∧ row.Perm (S.map fun s => (s, w)) ∧ (row.map Prod.snd).sum = 1

/-- The flag is given to the vertex by a face on the boundary. -/
def BoundaryFlag (cells : List Cell) (v : Nat) (b : Bool) : Prop :=
  ∃ c ∈ cells, ∃ f ∈ c.faces, ∃ ds, f.kind = .boundary ds ∧ (v, b) ∈ f.vertices.zip ds

end Verif.HangingNode.Spec
