import Verif.Model.AmgIndexSet
import Verif.Spec.ParallelSolvers
/-
Vocabulary for the parallel index set (C147).
-/
namespace Verif.AmgIndexSet.Spec

open Verif.ParallelHelper Verif.ParallelHelper.Spec

/-- Process `p` has DOFs of the entity `e`. -/
def HasDofs (L : Layout) (p e : Nat) : Prop := p < L.procs ∧ ∃ c ∈ L.copies p, c.ent = e ∧ c.dofs ≠ []

/-- Several processes have DOFs of the entity `e`. -/
def SharedEntity (L : Layout) (e : Nat) : Prop := ∃ p q, p ≠ q ∧ HasDofs L p e ∧ HasDofs L q e

/-- The messages between all copies (all interior and border copies if `ibOnly`) of an entity on different processes, in any order. -/
def AllMessages (L : Layout) (ibOnly : Bool) (msgs : List Msg) : Prop := ∀ m, m ∈ msgs ↔
  m.src < L.procs ∧ m.dst < L.procs ∧ m.src ≠ m.dst ∧ m.copy ∈ L.copies m.dst ∧ (ibOnly = true → m.copy.ib = true) ∧
    ∃ c ∈ L.copies m.src, c.ent = m.copy.ent ∧ (ibOnly = true → c.ib = true)

end Verif.AmgIndexSet.Spec
