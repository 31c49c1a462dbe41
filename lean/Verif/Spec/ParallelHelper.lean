import Verif.Model.ParallelHelper
import Mathlib.Algebra.BigOperators.Group.List.Basic
/-
Vocabulary for the disjoint partitioning of DOFs (C48, C85, C86).
-/
namespace Verif.ParallelHelper.Spec

open Verif.ParallelHelper

/-- Process `p` stores an interior or border copy of entity `e`. -/
def HasIB (L : Layout) (p e : Nat) : Prop := ∃ c ∈ L.copies p, c.ent = e ∧ c.ib = true

/-- `p` is the lowest rank on which entity `e` is interior or border. -/
def Lowest (L : Layout) (e p : Nat) : Prop := p < L.procs ∧ HasIB L p e ∧ ∀ q, q < p → ¬ HasIB L q e

/-- A distribution of a grid with a function space on it. -/
structure Valid (L : Layout) (entities : List Nat) (ndof : Nat → Nat) (ibOnly : Bool) : Prop where
  /-- Ranks are below the largest integer. -/
  ranks : L.procs ≤ unknownRank
  /-- The copies of a process have distinct DOFs, together the whole container. -/
  positions : ∀ p, p < L.procs → ((L.copies p).flatMap Copy.dofs).Perm (List.range (L.size p))
  /-- A process stores an entity at most once. -/
  once : ∀ p, p < L.procs → ((L.copies p).map Copy.ent).Nodup
  /-- The list of all entities. -/
  distinct : entities.Nodup
  known : ∀ p, p < L.procs → ∀ c ∈ L.copies p, c.ent ∈ entities
  /-- Every entity is interior or border somewhere. -/
  somewhere : ∀ e ∈ entities, ∃ p, p < L.procs ∧ HasIB L p e
  /-- All interior and border copies of an entity have all its DOFs, other copies have them or are not in the entity set. -/
  dofs : ∀ p, p < L.procs → ∀ c ∈ L.copies p, c.dofs.length = ndof c.ent ∨ (c.ib = false ∧ c.dofs = [])
  /-- If the entity set is restricted to interior and border, other copies have no DOFs. -/
  restricted : ibOnly = true → ∀ p, p < L.procs → ∀ c ∈ L.copies p, c.ib = false → c.dofs = []

/-- The messages from interior and border copies to all copies (to interior and border copies only if `ibOnly`) on other processes, in any order. -/
def Interface (L : Layout) (ibOnly : Bool) (msgs : List Msg) : Prop := ∀ m, m ∈ msgs ↔
  m.src < L.procs ∧ m.dst < L.procs ∧ m.src ≠ m.dst ∧ m.copy ∈ L.copies m.dst ∧ HasIB L m.src m.copy.ent ∧ (ibOnly = true → m.copy.ib = true)

/-- The messages between all copies of an entity on different processes, in any order. -/
def AllInterface (L : Layout) (msgs : List Msg) : Prop := ∀ m, m ∈ msgs ↔
  m.src < L.procs ∧ m.dst < L.procs ∧ m.src ≠ m.dst ∧ m.copy ∈ L.copies m.dst ∧ ∃ c ∈ L.copies m.src, c.ent = m.copy.ent

mutual
/-- The entries of a nested vector in order. -/
def flat {A : Type} : NVec A → List A
  | .field l => l
  | .block l => flatList l
def flatList {A : Type} : List (NVec A) → List A
  | [] => []
  | v :: l => flat v ++ flatList l
end

mutual
/-- Two nested vectors have the same blocks. -/
def sameShape {A B : Type} : NVec A → NVec B → Prop
  | .field x, .field y => x.length = y.length
  | .block x, .block y => sameShapes x y
  | _, _ => False
def sameShapes {A B : Type} : List (NVec A) → List (NVec B) → Prop
  | [], [] => True
  | a :: x, b :: y => sameShape a b ∧ sameShapes x y
  | _, _ => False
end

/-- The vectors `x p` of the processes are, on interior and border copies, the restrictions of one global vector with the entries `X e k`. -/
def Consistent {K : Type} (L : Layout) (x : Nat → NVec K) (X : Nat → Nat → K) : Prop :=
  ∀ p, p < L.procs → ∀ c ∈ L.copies p, c.ib = true → ∀ k i : Nat, c.dofs[k]? = some i → (flat (x p))[i]? = some (X c.ent k)

/-- The scalar product of two global vectors. -/
def globalDot {K : Type} [Field K] (entities : List Nat) (ndof : Nat → Nat) (X Y : Nat → Nat → K) : K :=
  (entities.map fun e => ((List.range (ndof e)).map fun k => X e k * Y e k).sum).sum

end Verif.ParallelHelper.Spec
