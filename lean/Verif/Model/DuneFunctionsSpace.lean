/-
Model of the grid function space made from a dune-functions basis.

Sources: dune/pdelab/gridfunctionspace/dunefunctionsgridfunctionspace.hh, dunefunctionslocalfunctionspace.hh and dunefunctionslfsindexcache.hh (under
/repo/dune/pdelab/gridfunctionspace).

Simplifications: the basis, the index set of the grid view and the reference elements are represented by the list of local DOFs of each element in the order
of the loop over the elements. Vectors indexed by geometry types and entities are functions with a check of the range of the entity.
-/
namespace Verif.DuneFunctionsSpace

/-- A local DOF of an element: the geometry type and the index of the subentity to which its local key refers, the index of the local key
(dunefunctionsgridfunctionspace.hh:275-281 and 309-315), and the global index of the basis, `localView.index(i)` (line 317). -/
structure LocalDof where
  gt : Nat
  ent : Nat
  k : Nat
  index : Nat
  deriving DecidableEq

/-- A basis on a grid view: the geometry types of each codimension (`indexSet.types(codim)`), the number of entities of each type, and the local DOFs of
the elements. Used for `countDof`, dunefunctionsgridfunctionspace.hh:273-285. -/
structure Basis where
  types : List (List Nat)
  count : Nat → Nat
  elements : List (List LocalDof)

/-- dunefunctionsgridfunctionspace.hh:273-285  the number of DOFs of the entity of a local DOF becomes at least the index of its local key plus 1. `none`: the
entity is outside of the vector (undefined behaviour). -/
def countDof (B : Basis) (n : Nat → Nat → Nat) (d : LocalDof) : Option (Nat → Nat → Nat) :=
  if d.ent < B.count d.gt then
    some fun gt ent => if gt = d.gt ∧ ent = d.ent then max (n gt ent) (d.k + 1) else n gt ent
  else none

/-- dunefunctionsgridfunctionspace.hh:255-286  `dofsPerEntity`: all zero, then the loops over the elements and their local DOFs. -/
def dofsPerEntity (B : Basis) : Option (Nat → Nat → Nat) :=
  B.elements.foldlM (fun n e => e.foldlM (countDof B) n) fun _ _ => 0

/-- dunefunctionsgridfunctionspace.hh:307-318  the container index of a local DOF is stored. `none`: outside of the vectors. -/
def setIndex (B : Basis) (t : Nat → Nat → List (Option Nat)) (d : LocalDof) : Option (Nat → Nat → List (Option Nat)) :=
  if d.ent < B.count d.gt ∧ d.k < (t d.gt d.ent).length then
    some fun gt ent => if gt = d.gt ∧ ent = d.ent then (t gt ent).set d.k (some d.index) else t gt ent
  else none

/-- dunefunctionsgridfunctionspace.hh:288-320  `_containerIndices`: the entries are empty at first. -/
def containerIndices (B : Basis) (n : Nat → Nat → Nat) : Option (Nat → Nat → List (Option Nat)) :=
  B.elements.foldlM (fun t e => e.foldlM (setIndex B) t) fun gt ent => List.replicate (n gt ent) none

/-- dunefunctionsgridfunctionspace.hh:335-342  the loop over the entities of one geometry type after the first one; `prev` is `dofs[i-1]`, the state is
`_contains[codim]` and `_fixedSize[codim]`. -/
def scanRest : Nat → List Nat → Bool × Bool → Bool × Bool
  | _, [], st => st
  | prev, d :: ds, (contains, fixed) =>
    scanRest d ds (if d > 0 then true else contains, if prev ≠ d then false else fixed)

/-- dunefunctionsgridfunctionspace.hh:330-342  one geometry type. `none`: there is no entity, `dofs[0]` is undefined. -/
def scanType (dofs : List Nat) (st : Bool × Bool) : Option (Bool × Bool) :=
  match dofs with
  | [] => none
  | d :: ds => some (scanRest d ds (if d > 0 then true else st.1, st.2))

/-- dunefunctionsgridfunctionspace.hh:324-344  one codimension. -/
def scanCodim (B : Basis) (n : Nat → Nat → Nat) (types : List Nat) : Option (Bool × Bool) :=
  types.foldlM (fun st gt => scanType ((List.range (B.count gt)).map (n gt)) st) (false, true)

/-- The data of a `LeafOrdering`. Used for `update`, dunefunctionsgridfunctionspace.hh:247-345. -/
structure LeafOrdering where
  containerIndices : Nat → Nat → List (Option Nat)
  flags : List (Bool × Bool)

/-- dunefunctionsgridfunctionspace.hh:247-345  `LeafOrdering::update`. -/
def update (B : Basis) : Option LeafOrdering :=
  match dofsPerEntity B with
  | none => none
  | some n =>
    match containerIndices B n, B.types.mapM (scanCodim B n) with
    | some t, some f => some ⟨t, f⟩
    | _, _ => none

/-- dunefunctionsgridfunctionspace.hh:213-216 `contains(codim)` and 220-223 `fixedSize(codim)`. -/
def LeafOrdering.contains (o : LeafOrdering) (codim : Nat) : Option Bool := o.flags[codim]?.map Prod.fst
/-- dunefunctionsgridfunctionspace.hh:247-345  `_fixed_size` is set in `update`. -/
def LeafOrdering.fixedSize (o : LeafOrdering) (codim : Nat) : Option Bool := o.flags[codim]?.map Prod.snd

/-- dunefunctionsgridfunctionspace.hh:201-204  the number of DOFs of an entity. -/
def LeafOrdering.size (o : LeafOrdering) (gt ent : Nat) : Nat := (o.containerIndices gt ent).length

/-- dunefunctionsgridfunctionspace.hh:226-240  `extract_entity_indices`: what is written to the iterator. -/
def LeafOrdering.extract (o : LeafOrdering) (gt ent : Nat) : List (Option Nat) :=
  (List.range (o.containerIndices gt ent).length).map fun i => ((o.containerIndices gt ent)[i]?).join

/-- dunefunctionsgridfunctionspace.hh:242-245  `containerIndex(DOFIndex)`. -/
def LeafOrdering.containerIndex (o : LeafOrdering) (di : Nat × Nat × Nat) : Option Nat :=
  ((o.containerIndices di.1 di.2.1)[di.2.2]?).join

/-- dunefunctionslocalfunctionspace.hh:107-128  `dofIndex` of the bound local function space: type and index of the entity and index of the local key. -/
def lfsDofIndex (e : List LocalDof) (i : Nat) : Option (Nat × Nat × Nat) := e[i]?.map fun d => (d.gt, d.ent, d.k)

/-- dunefunctionslocalfunctionspace.hh:130-136  `containerIndex` of the bound local function space. (The tree of a scalar basis has one node, so that
`localIndex` is the identity.) -/
def lfsContainerIndex (e : List LocalDof) (i : Nat) : Option Nat := e[i]?.map LocalDof.index

/-! ### The finite element map -/

/-- An element with its geometry type and a number, and what happens to the map: it is asked for the finite element of an element, or the space is updated
(dunefunctionsgridfunctionspace.hh:557-564: the basis changes, then the map is cleared). `fe` are the finite elements of the elements in the basis. -/
structure Element where
  type : Nat
  no : Nat

/-- The calls the map sees: `find`, dunefunctionsgridfunctionspace.hh:112-127, and `update` of the space, 557-564. -/
inductive FemEvent (FE : Type) where
  | find (e : Element)
  | update (fe : Element → FE)

/-- `std::map::find`. Used for `femStep`, dunefunctionsgridfunctionspace.hh:112-127. -/
def lookup {FE : Type} (type : Nat) : List (Nat × FE) → Option FE
  | [] => none
  | (t, f) :: m => if t = type then some f else lookup type m

/-- dunefunctionsgridfunctionspace.hh:112-127  `FEM::find` and 129-132 `FEM::update`; the map holds the finite elements of the bound local views. -/
def femStep {FE : Type} (st : (Element → FE) × List (Nat × FE)) : FemEvent FE → ((Element → FE) × List (Nat × FE)) × Option FE
  | .find e =>
    match lookup e.type st.2 with
    | none => ((st.1, (e.type, st.1 e) :: st.2), some (st.1 e))
    | some f => (st, some f)
  | .update fe => ((fe, []), none)

/-- A history, starting with the constructor; the answers to the calls of `find`. Source: the methods dunefunctionsgridfunctionspace.hh:112-127. -/
def femRun {FE : Type} : (Element → FE) × List (Nat × FE) → List (FemEvent FE) → List FE
  | _, [] => []
  | st, ev :: evs =>
    match femStep st ev with
    | (st', some f) => f :: femRun st' evs
    | (st', none) => femRun st' evs

/-! ### The index cache with constraints -/

/-- dunefunctionslfsindexcache.hh:61-70 and 132  the cache with constraints: the flags are zero. -/
structure Cache where
  flags : List Nat

/-- dunefunctionslfsindexcache.hh:61-70. -/
def Cache.create (maxSize : Nat) : Cache := ⟨List.replicate maxSize 0⟩

/-- dunefunctionslfsindexcache.hh:72-73  `update()` does nothing, whatever the constraints and the bound element. -/
def Cache.update (c : Cache) (_constraints : List Nat) (_bound : List LocalDof) : Cache := c

/-- dunefunctionslfsindexcache.hh:90-93. `none`: outside of the vector. -/
def Cache.isConstrained (c : Cache) (i : Nat) : Option Bool := c.flags[i]?.map fun f => f % 2 == 1

end Verif.DuneFunctionsSpace
