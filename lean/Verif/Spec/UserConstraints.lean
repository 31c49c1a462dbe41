import Verif.Spec.ConstraintsAssembly
/-
Vocabulary for constraints classes written by users: what each of their methods reports, and where they are asked.
-/
namespace Verif.ConsAsm.Spec

open GridAssembler Constraints

variable {D F : Type}

/-- The local constraints are exactly Dirichlet constraints of the DOFs in `S`. -/
def IsDirichletSet (cl : CL D F) (S : D → Prop) : Prop := ∀ d r, (d, r) ∈ cl ↔ r = [] ∧ S d

/-- The DOFs which the methods of a class report; on a face between two elements, those of the inside and those of the outside. -/
structure Report (D : Type) where
  volume : Param → Elem → Bound D → D → Prop
  boundary : Param → Elem → CIsect → Bound D → D → Prop
  processor : Elem → CIsect → Bound D → D → Prop
  inside : Elem → CIsect → Elem → Bound D → Bound D → D → Prop
  outside : Elem → CIsect → Elem → Bound D → Bound D → D → Prop

/-- The methods of the class add Dirichlet constraints for the DOFs they report to those that are there. -/
structure Reports (c : Cons D F) (R : Report D) : Prop where
  volume : ∀ p e lfs cl S, IsDirichletSet cl S → IsDirichletSet (c.volume p e lfs cl) fun d => S d ∨ R.volume p e lfs d
  boundary : ∀ p e i lfs cl S, IsDirichletSet cl S → IsDirichletSet (c.boundary p e i lfs cl) fun d => S d ∨ R.boundary p e i lfs d
  processor : ∀ e i lfs cl S, IsDirichletSet cl S → IsDirichletSet (c.processor e i lfs cl) fun d => S d ∨ R.processor e i lfs d
  skeleton : ∀ e i f lfs lfs' cl cl' S S', IsDirichletSet cl S → IsDirichletSet cl' S' →
    IsDirichletSet (c.skeleton e i f lfs lfs' cl cl').1 (fun d => S d ∨ R.inside e i f lfs lfs' d) ∧
    IsDirichletSet (c.skeleton e i f lfs lfs' cl cl').2 (fun d => S' d ∨ R.outside e i f lfs lfs' d)

/-- The DOF is reported when the classes of all leaf spaces are asked about an element and its faces. The space must have DOFs there; each face between two
elements is treated from the side of the element with the larger number. -/
inductive Reported (ap : Bool) (element : Nat → Elem) (ps : List (Param × Leaf D F)) (R : Leaf D F → Report D) (e : Elem) (d : D) : Prop
  | volume (p : Param) (l : Leaf D F) (h : (p, l) ∈ ps) (flag : l.cons.doVolume = true) (dofs : l.keys e ≠ [])
      (hd : (R l).volume p e (l.bind e) d)
  | boundary (p : Param) (l : Leaf D F) (h : (p, l) ∈ ps) (i : CIsect) (hi : i ∈ e.isects) (kind : classify ap i.toIsect = .boundary)
      (flag : l.cons.doBoundary = true) (dofs : l.keys e ≠ []) (hd : (R l).boundary p e i (l.bind e) d)
  | processor (p : Param) (l : Leaf D F) (h : (p, l) ∈ ps) (i : CIsect) (hi : i ∈ e.isects) (kind : classify ap i.toIsect = .processor)
      (flag : l.cons.doProcessor = true) (dofs : l.keys e ≠ []) (hd : (R l).processor e i (l.bind e) d)
  | skeleton (p : Param) (l : Leaf D F) (h : (p, l) ∈ ps) (i : CIsect) (hi : i ∈ e.isects)
      (kind : classify ap i.toIsect = .skeleton ∨ classify ap i.toIsect = .periodic) (order : i.outside < e.id)
      (flag : l.cons.doSkeleton = true) (dofs : l.keys e ≠ [] ∨ l.keys (element i.outside) ≠ [])
      (hd : (R l).inside e i (element i.outside) (l.bind e) (l.bind (element i.outside)) d ∨
        (R l).outside e i (element i.outside) (l.bind e) (l.bind (element i.outside)) d)

end Verif.ConsAsm.Spec
