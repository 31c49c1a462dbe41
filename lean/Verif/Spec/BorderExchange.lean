import Verif.Model.BorderExchange
/-
Vocabulary for the exchange of matrix entries on the border (C144, C145, C146).
-/
namespace Verif.BorderExchange.Spec

open Verif.BorderExchange

/-- An entity that can have DOFs and is not a cell. -/
def Relevant (v : View) (e : Ent) : Prop := ∃ c, 0 < c ∧ c ≤ v.dim ∧ v.contains c = true ∧ e ∈ v.ents c

/-- What grids guarantee: geometry types belong to the codimension, indices are below the number of entities of the type and identify the
entity, and so do ids. -/
structure WellFormed (v : View) : Prop where
  types : ∀ c, 0 < c → c ≤ v.dim → v.contains c = true → ∀ e ∈ v.ents c, e.gt ∈ v.types c
  known : ∀ c, 0 < c → c ≤ v.dim → ∀ gt ∈ v.types c, gt < v.numTypes
  inRange : ∀ e, Relevant v e → e.index < v.size e.gt
  indices : ∀ e e', Relevant v e → Relevant v e' → e.gt = e'.gt → e.index = e'.index → e = e'
  ids : ∀ e e', Relevant v e → Relevant v e' → e.id = e'.id → e = e'

/-- `d` is the local index of the global DOF `I` (id of the entity, tree index), on a border entity. -/
def At (v : View) (I : Nat × Nat) (d : Dof) : Prop := ∃ e, Relevant v e ∧ e.border = true ∧ e.id = I.1 ∧ d = ⟨e.gt, e.index, I.2⟩

/-- `d` is a DOF on an entity that is not a cell; `dofs` lists the tree indices of the DOFs of the entities. -/
def IsDof (v : View) (dofs : Nat → Nat → List Nat) (d : Dof) : Prop := ∃ e, Relevant v e ∧ d.gt = e.gt ∧ d.index = e.index ∧ d.tree ∈ dofs e.gt e.index

/-- A nonoverlapping distribution of a grid with two function spaces without DOFs in cells: `M.dofs` are the DOFs of the test space,
`dofsU` those of the trial space. -/
structure Valid (M : Machine) (view : Nat → View) (dofsU : Nat → Nat → Nat → List Nat) : Prop where
  wf : ∀ p, p < M.procs → WellFormed (view p)
  /-- The caches have been constructed. -/
  cache : ∀ p, p < M.procs → Cache.update (view p) Cache.empty = some (M.cache p)
  /-- Entities of several processes are border entities. -/
  shared : ∀ p q, p < M.procs → q < M.procs → p ≠ q → ∀ e e', Relevant (view p) e → Relevant (view q) e' → e.id = e'.id → e.border = true
  nodup : ∀ p g i, (M.dofs p g i).Nodup
  /-- All copies of an entity have the same DOFs. -/
  sameV : ∀ p q, p < M.procs → q < M.procs → ∀ e e', Relevant (view p) e → Relevant (view q) e' → e.id = e'.id →
    ∀ t, t ∈ M.dofs p e.gt e.index → t ∈ M.dofs q e'.gt e'.index
  sameU : ∀ p q, p < M.procs → q < M.procs → ∀ e e', Relevant (view p) e → Relevant (view q) e' → e.id = e'.id →
    ∀ t, t ∈ dofsU p e.gt e.index → t ∈ dofsU q e'.gt e'.index
  /-- Different DOFs have different positions. -/
  injV : ∀ p, p < M.procs → ∀ d d', IsDof (view p) (M.dofs p) d → IsDof (view p) (M.dofs p) d' → M.mapV p d = M.mapV p d' → d = d'
  injU : ∀ p, p < M.procs → ∀ d d', IsDof (view p) (dofsU p) d → IsDof (view p) (dofsU p) d' → M.mapU p d = M.mapU p d' → d = d'

/-- The local patterns consist of links between DOFs. -/
def ValidLinks (M : Machine) (view : Nat → View) (dofsU : Nat → Nat → Nat → List Nat) (links : Nat → List (List Link)) : Prop :=
  ∀ p, p < M.procs → ∀ ls ∈ links p, ∀ l ∈ ls, IsDof (view p) (M.dofs p) l.row ∧ IsDof (view p) (dofsU p) l.col

/-- A local pattern of the process contains a link between the unconstrained border DOFs `I` and `J`. -/
def Linked (v : View) (links : List (List Link)) (I J : Nat × Nat) : Prop :=
  ∃ ls ∈ links, ∃ l ∈ ls, l.rowConstrained = false ∧ l.colConstrained = false ∧ At v I l.row ∧ At v J l.col

/-- The messages between all copies of entities on different processes, each once, in any order. -/
def Exchange (M : Machine) (view : Nat → View) (msgs : List Message) : Prop :=
  msgs.Nodup ∧ ∀ m, m ∈ msgs ↔ m.src < M.procs ∧ m.dst < M.procs ∧ m.src ≠ m.dst ∧
    ∃ e e', Relevant (view m.src) e ∧ Relevant (view m.dst) e' ∧ e.id = e'.id ∧ m.sent = (e.gt, e.index) ∧ m.received = (e'.gt, e'.index)

end Verif.BorderExchange.Spec
