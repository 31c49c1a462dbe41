import Mathlib.Algebra.Field.Defs
/-
Model of the transfer of solutions in grid adaptation: backup before, replay after the adaptation of the grid.

Source: dune/pdelab/adaptivity/adaptivity.hh (under /repo).

Simplifications: elements are identified with their ids (`localIdSet`), which persist through the adaptation. Points are global points:
a map `geometry.local` followed by an evaluation on the reference element is an evaluation at the global point. Basis functions are
scalar. Arithmetic is exact. Local DOF vectors are lists; the offsets of the leaves of the function space tree are the sums of the sizes
of the leaves before (see `Cache` below for the cache they are taken from). Memory exhaustion is not modelled.
-/
namespace Verif.Transfer

/-- What the visitors use of a hierarchical grid: the chain father, grandfather, ... of an element up to the macro element
(`hasFather`, `father`), `mightVanish`, `isLeaf` and `descendantElements(e,maxLevel)`. Used for `Backup.read`, adaptivity.hh:279-285 and 318-324. -/
structure Hierarchy (E : Type) where
  up : E → List E
  mightVanish : E → Bool
  isLeaf : E → Bool
  descendants : E → List E

/-- A leaf of the function space tree: the finite element found in the finite element map for an element, with `localBasis().size()`,
`localBasis().evaluateFunction` and `localInterpolation().interpolate`. Used for `massMatrix`, adaptivity.hh:91-113. -/
structure Leaf (E X K : Type) where
  size : E → Nat
  phi : E → X → List K
  interpolate : E → (X → K) → List K

/-- Quadrature and geometry: the points (global) and weights of `QuadratureRules::rule(e.type(),order)` and the integration element.
Used for `massMatrix`, adaptivity.hh:91-113. -/
structure Quad (E X K : Type) where
  rule : Nat → E → List (X × K)
  integrationElement : E → X → K

variable {E X D K : Type}

section
variable [Field K]

/-- `val.axpy(u[i],phi[i])` for all basis functions, adaptivity.hh:256-260 and 406-409. -/
def combine : List K → List K → K
  | c :: cs, p :: ps => c * p + combine cs ps
  | _, _ => 0

/-- The mass matrix of a leaf on the reference element, adaptivity.hh:91-113. -/
def massMatrix (q : Quad E X K) (order : Nat) (l : Leaf E X K) (e : E) (i j : Nat) : K :=
  ((q.rule order e).map fun (x, w) => (l.phi e x).getD i 0 * (l.phi e x).getD j 0 * w).sum

/-- One quadrature point of `backup_visitor::leaf`, adaptivity.hh:247-269: `v` is the local vector of the ancestor as a function of the
position, `inv` the inverse mass matrix. -/
def projectPoint (q : Quad E X K) (l : Leaf E X K) (inv : Nat → Nat → K) (anc cur : E) (coff foff : Nat) (uFine : List K)
    (v : Nat → K) (p : X × K) : Nat → K := fun k =>
  let factor := p.2 * q.integrationElement cur p.1 / q.integrationElement anc p.1
  let val := combine (uFine.drop foff) (l.phi cur p.1)
  if coff ≤ k ∧ k < coff + l.size anc then
    v k + factor * (((List.range (l.size anc)).map fun j => inv (k - coff) j * (l.phi anc p.1).getD j 0).sum * val)
  else v k

/-- The traversal of the leaves with `backup_visitor::leaf`, adaptivity.hh:225-273 and 326. `intOrder` is the member `_int_order`,
`order` the one of the projection object; `invert n` inverts an n × n matrix (`DynamicMatrix::invert`). -/
def projectLeaves (q : Quad E X K) (invert : Nat → (Nat → Nat → K) → Nat → Nat → K) (order intOrder : Nat) (anc cur : E)
    (uFine : List K) : List (Leaf E X K) → Nat → Nat → (Nat → K) → Nat → K
  | [], _, _, v => v
  | l :: ls, coff, foff, v =>
    projectLeaves q invert order intOrder anc cur uFine ls (coff + l.size anc) (foff + l.size cur)
      ((q.rule intOrder cur).foldl
        (projectPoint q l (invert (l.size anc) (massMatrix q order l anc)) anc cur coff foff uFine) v)

/-- The number of DOFs of an element, `_leaf_offset_cache[e.type()].back()`. Used for `Backup.project`, adaptivity.hh:305-328. -/
def totalSize (leaves : List (Leaf E X K)) (e : E) : Nat := (leaves.map fun l => l.size e).sum

/-- Everything of a backup that does not change in its course: the grid before the adaptation, the function space and the vector.
Used for `Backup.read`, adaptivity.hh:279-285 and 318-324. -/
structure Backup (E X D K : Type) where
  grid : Hierarchy E
  leaves : List (Leaf E X K)
  quad : Quad E X K
  invert : Nat → (Nat → Nat → K) → Nat → Nat → K
  order : Nat
  dofs : E → List D
  u : D → K

/-- `_u_view.bind(_lfs_cache); _u_view.read(...)`, adaptivity.hh:279-285 and 318-324. -/
def Backup.read (b : Backup E X D K) (e : E) : List K := (b.dofs e).map b.u

/-- The projection of the data of all leaf descendants to an ancestor, adaptivity.hh:305-328. The visitor is constructed without the
last argument (adaptivity.hh:553), so that its integration order is the default 2 (adaptivity.hh:337). -/
def Backup.project (b : Backup E X D K) (a : E) : List K :=
  let v := ((b.grid.descendants a).filter b.grid.isLeaf).foldl
    (fun v c => projectLeaves b.quad b.invert b.order 2 a c (b.read c) b.leaves 0 0 v) fun _ => 0
  (List.range (totalSize b.leaves a)).map v

/-- The map from ids to local vectors (`std::unordered_map`). Used for `Backup.climb`, adaptivity.hh:291-329. -/
abbrev TransferMap (E K : Type) := E → Option (List K)

variable [DecidableEq E]

/-- Assignment of an entry of the map. Used for `Backup.climb`, adaptivity.hh:291-329. -/
def TransferMap.set (m : TransferMap E K) (e : E) (v : List K) : TransferMap E K := fun e' => if e' = e then some v else m e'

/-- The loop over the ancestors, adaptivity.hh:291-329: `cur` is `_ancestor`, the list holds the ancestors of it. -/
def Backup.climb (b : Backup E X D K) : E → List E → TransferMap E K → TransferMap E K
  | _, [], m => m
  | cur, a :: rest, m =>
    if b.grid.mightVanish cur then
      -- operator[] creates an empty entry
      if ((m a).getD []).length > 0 then b.climb a rest m
      else b.climb a rest (m.set a (b.project a))
    else m

/-- `backup_visitor::operator()`, adaptivity.hh:275-330. -/
def Backup.visit (b : Backup E X D K) (m : TransferMap E K) (e : E) : TransferMap E K :=
  b.climb e (b.grid.up e) (m.set e (b.read e))

/-- `GridAdaptor::backupData`, adaptivity.hh:549-558, for the interior elements `cells` (with an empty map, 643). -/
def Backup.run (b : Backup E X D K) (cells : List E) : TransferMap E K := cells.foldl b.visit fun _ => none

/-- What the replay uses: the grid after the adaptation, the updated function space. Used for `Replay.localVector`, adaptivity.hh:450-480. -/
structure Replay (E X D K : Type) where
  grid : Hierarchy E
  leaves : List (Leaf E X K)
  dofs : E → List D

/-- The traversal of the leaves with `replay_visitor::leaf`, adaptivity.hh:430-448, with `coarse_function` (402-410): the values are
copied to `_u_fine.begin() + element_offset`, that is, one leaf behind the other. -/
def interpolateLeaves (e : E) (uCoarse : List K) (anc : E) : List (Leaf E X K) → Nat → List K
  | [], _ => []
  | l :: ls, aoff =>
    l.interpolate e (fun x => combine (uCoarse.drop aoff) (l.phi anc x)) ++ interpolateLeaves e uCoarse anc ls (aoff + l.size anc)

/-- The local vector added for an element, `replay_visitor::operator()`, adaptivity.hh:450-480. -/
def Replay.localVector (r : Replay E X D K) (e anc : E) (uCoarse : List K) : List K :=
  if e = anc then uCoarse else interpolateLeaves e uCoarse anc r.leaves 0

variable [DecidableEq D]

/-- `view.add(local)` followed by `commit`: adding the entries of a local vector at the DOFs of the element.
Used for `Replay.cells`, adaptivity.hh:576-590. -/
def addLocal {R : Type} [Add R] (u : D → R) (dofs : List D) (v : List R) : D → R :=
  (dofs.zip v).foldl (fun u p d => if d = p.1 then u d + p.2 else u d) u

omit [Field K] [DecidableEq D] in
/-- The search for stored data on the way up, adaptivity.hh:578-587: `none` is the exception of 584. -/
def findData (m : TransferMap E K) : List E → Option (E × List K)
  | [] => none
  | a :: rest =>
    match m a with
    | some v => some (a, v)
    | none => findData m rest

/-- The loop over the elements in `GridAdaptor::replayData`, adaptivity.hh:576-590, with the counts (476-479); `none`: exception. -/
def Replay.cells (r : Replay E X D K) (m : TransferMap E K) : List E → (D → K) × (D → Nat) → Option ((D → K) × (D → Nat))
  | [], s => some s
  | e :: es, s =>
    match findData m (e :: r.grid.up e) with
    | none => none
    | some (a, v) =>
      r.cells m es (addLocal s.1 (r.dofs e) (r.localVector e a v), addLocal s.2 (r.dofs e) (List.replicate (r.dofs e).length 1))

/-- A process: its interior elements before and after the adaptation, what it knows of both grids, and which DOFs it has on interior or
border entities afterwards. DOFs of the new grid carry the same name on all processes. Used for `Process.localData`, adaptivity.hh:653. -/
structure Process (E X D K : Type) where
  backup : Backup E X D K
  cellsBefore : List E
  replay : Replay E X D K
  cellsAfter : List E
  interiorBorder : D → Bool

/-- The data of a process before the communication: `x1 = X(gfs,0.0)` (adaptivity.hh:653) and the loop over the elements. -/
def Process.localData (p : Process E X D K) : Option ((D → K) × (D → Nat)) :=
  p.replay.cells (p.backup.run p.cellsBefore) p.cellsAfter (fun _ => 0, fun _ => 0)

/-- Communication with an `AddDataHandle` on the InteriorBorder_InteriorBorder interface, adaptivity.hh:592-599: a DOF on interior or
border entities gets the sum of the values of all processes with which it is shared in this way; others are left alone. -/
def communicateAdd {R : Type} [Add R] [Zero R] (ps : List (Process E X D K × (D → R))) (p : Process E X D K × (D → R)) : D → R := fun d =>
  if p.1.interiorBorder d then ((ps.filter fun q => q.1.interiorBorder d).map fun q => q.2 d).sum else p.2 d

/-- The normalisation, adaptivity.hh:602-604. -/
def normalize (u : D → K) (c : D → Nat) : D → K := fun d => u d / (if c d > 0 then (c d : K) else 1)

/-- Pairs of the processes with the results of their element loops; `none` if one of them throws. Used for `adaptGrid`, adaptivity.hh:631-658. -/
def localAll : List (Process E X D K) → Option (List (Process E X D K × ((D → K) × (D → Nat))))
  | [] => some []
  | p :: ps =>
    match p.localData, localAll ps with
    | some s, some ss => some ((p, s) :: ss)
    | _, _ => none

/-- `adapt_grid`, adaptivity.hh:631-658, on all processes: the vectors afterwards; `none` if a process throws. -/
def adaptGrid (ps : List (Process E X D K)) : Option (List (D → K)) :=
  (localAll ps).map fun ss => ss.map fun s =>
    normalize (communicateAdd (ss.map fun t => (t.1, t.2.1)) (s.1, s.2.1)) (communicateAdd (ss.map fun t => (t.1, t.2.2)) (s.1, s.2.2))

end

/-- `LeafOffsetCache`, adaptivity.hh:32-73: the offsets per geometry type; all zero (here `none`) as long as no element of the type with
DOFs has been seen. -/
abbrev Cache := Nat → Option (List Nat)

/-- Partial sums behind a zero, adaptivity.hh:57-59. -/
def offsetsFrom : Nat → List Nat → List Nat
  | acc, [] => [acc]
  | acc, s :: ss => acc :: offsetsFrom (acc + s) ss

/-- `LeafOffsetCache::update`, adaptivity.hh:51-63, for an element of type `gt` with the leaf sizes `sizes`. -/
def Cache.update (c : Cache) (gt : Nat) (sizes : List Nat) : Cache :=
  match c gt with
  | some _ => c
  | none => if sizes.sum = 0 then c else fun g => if g = gt then some (offsetsFrom 0 sizes) else c g

/-- `LeafOffsetCache::operator[]`, adaptivity.hh:43-49; `none`: the assertion fails. -/
def Cache.get (c : Cache) (gt : Nat) : Option (List Nat) := c gt

/-- The operations of `adaptGrid` on packs of a function space with several vectors. Used for `iterateTuple`, adaptivity.hh:735-784. -/
inductive Op where
  | preAdapt
  | backup (pack vec : Nat)
  | adapt
  | updateSpace (pack : Nat)
  | replay (pack vec : Nat)
  | postAdapt
  deriving DecidableEq, Repr

/-- `impl::iterateTuple`, adaptivity.hh:735-784, for vectors `i`, `i+1`, ... (`n` of them left) of pack `p`; `next` is what
`iteratePacks` does for the packs behind. -/
def iterateTuple (p : Nat) (next : List Op) : Nat → Nat → List Op
  | _, 0 => next ++ [.updateSpace p]
  | i, n + 1 => .backup p i :: (iterateTuple p next (i + 1) n ++ [.replay p i])

/-- `impl::iteratePacks`, adaptivity.hh:789-815; the list holds the numbers of vectors of the packs from pack `p` on. -/
def iteratePacks : Nat → List Nat → List Op
  | _, [] => [.adapt]
  | p, n :: ns => iterateTuple p (iteratePacks (p + 1) ns) 0 n

/-- `adaptGrid`, adaptivity.hh:848-859. -/
def adaptPacks (packs : List Nat) : List Op := .preAdapt :: (iteratePacks 0 packs ++ [.postAdapt])

end Verif.Transfer
