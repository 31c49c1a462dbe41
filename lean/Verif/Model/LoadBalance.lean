import Verif.Model.DataHandle
/-
Model of `loadBalanceGrid`, /repo/dune/pdelab/gridfunctionspace/loadbalance.hh (lines below refer to this file), with the wrapper of
/repo/dune/pdelab/common/polymorphicbufferwrapper.hh.

Simplifications: all processes are part of one state. The grid manager is a parameter: it decides which entities are sent from which
process to which, in which order (`Transfer`), and what the partition looks like afterwards (the spaces after `update`). A message buffer
transports the bytes written by `gather` to `scatter` unchanged. Output is left out. A failing assertion and reading behind the end
of a buffer are `none`.
-/
namespace Verif.LoadBalance

open DataHandle

variable {Byte E I K : Type} [DecidableEq I]

/-- What a scalar grid function space of one pack knows: whether its finite element map has degrees of freedom in a codimension
(`finiteElementMap().hasDOFs`), which entities belong to its entity set on a process, the interior and border entities of each codimension in
the order of the iteration, and the container indices of an entity (`EntityIndexCache`, entityindexcache.hh:49-57). -/
structure Space (E : Type) where
  hasDOFs : Nat → Bool
  contains : Nat → E → Bool
  interiorBorder : Nat → Nat → List E
  dofs : Nat → E → List Nat

/-- An entity of the grid that is sent, with the number of its codimension. Used for `exec`, gridfunctionspace/loadbalance.hh:401. -/
structure Transfer (E : Type) where
  src : Nat
  dst : Nat
  entity : E
  codim : Nat

/-- The field type of the vectors: its bytes, and the conversions of sizes to it (`static_cast<R0>(size)`, line 150) and back (`(size_t) tmp`,
line 200). -/
structure Field (Byte K : Type) where
  codec : Codec Byte K
  ofSize : Nat → K
  toSize : K → Nat

/-- `std::unordered_map<ID,std::vector<R>>`, line 427. -/
abbrev DofMap (I K : Type) := I → Option (List K)

/-- `map.insert({{id,dofs}})`: an entry that is there already is kept. Used for `mapFiller`, gridfunctionspace/loadbalance.hh:241-269. -/
def insertNew (m : DofMap I K) (i : I) (d : List K) : DofMap I K :=
  if (m i).isSome then m else fun j => if j = i then some d else m j

/-- `loadBalanceMapFiller`, lines 241-269, on process `p`. -/
def mapFiller (id : E → I) (s : Space E) (p codim : Nat) (v : Nat → K) (m : DofMap I K) : DofMap I K :=
  (s.interiorBorder p codim).foldl (fun m e => insertNew m (id e) ((s.dofs p e).map v)) m

/-- `FillLoadBalanceDOFMap<codim>::fillMap`, lines 271-294. -/
def fillMap (id : E → I) (s : Space E) (p : Nat) (v : Nat → K) : Nat → DofMap I K → DofMap I K
  | 0, m => if s.hasDOFs 0 then mapFiller id s p 0 v m else m
  | codim + 1, m => fillMap id s p v codim (if s.hasDOFs (codim + 1) then mapFiller id s p (codim + 1) v m else m)

/-- `localView[i]=dofs[i]` for all `i`, and `commit()`, lines 320-326. -/
def store (v : Nat → K) (indices : List Nat) (d : List K) : Nat → K :=
  (indices.zip d).foldl (fun v x i => if i = x.1 then x.2 else v i) v

/-- `loadBalanceMapReader`, lines 296-331, on process `p`: the assertions are in lines 317-318. -/
def mapReader (id : E → I) (s : Space E) (p codim : Nat) (m : DofMap I K) (v : Nat → K) : Option (Nat → K) :=
  (s.interiorBorder p codim).foldlM (fun v e => do
    let d ← m (id e)
    if d.length = (s.dofs p e).length then some (store v (s.dofs p e) d) else none) v

/-- `ReadLoadBalanceDOFMap<codim>::readMap`, lines 333-356. -/
def readMap (id : E → I) (s : Space E) (p : Nat) (m : DofMap I K) : Nat → (Nat → K) → Option (Nat → K)
  | 0, v => if s.hasDOFs 0 then mapReader id s p 0 m v else some v
  | codim + 1, v => do readMap id s p m codim (← if s.hasDOFs (codim + 1) then mapReader id s p (codim + 1) m v else some v)

/-- One element of the tuple of the data handle on one process: `GFSAndMap`, lines 359-381. -/
structure Entry (E I K : Type) where
  space : Space E
  map : DofMap I K

/-- `sizeTMP`, lines 57-103, and `size`, lines 105-113. -/
def size (F : Field Byte K) (id : E → I) (p : Nat) (e : E) (codim : Nat) : List (Entry E I K) → Option Nat
  | [] => some 0
  | x :: xs => do
    let n ← if x.space.hasDOFs codim then
        (if x.space.contains p e then (x.map (id e)).map fun d => F.codec.size + d.length * F.codec.size else some F.codec.size)
      else some 0
    (size F id p e codim xs).map (n + ·)

/-- `gatherTMP`, lines 116-166, and `gather`, lines 168-178. -/
def gather (F : Field Byte K) (id : E → I) (p : Nat) (e : E) (codim : Nat) : List (Entry E I K) → List Byte → Option (List Byte)
  | [], buf => some buf
  | x :: xs, buf => do
    let buf ← if x.space.hasDOFs codim then
        (if x.space.contains p e then
          (x.map (id e)).map fun d => d.foldl (write F.codec) (write F.codec buf (F.ofSize d.length))
        else some (write F.codec buf (F.ofSize 0)))
      else some buf
    gather F id p e codim xs buf

/-- Reading `n` degrees of freedom, lines 203-206. -/
def readDofs (F : Field Byte K) : Nat → List Byte → Option (List K × List Byte)
  | 0, buf => some ([], buf)
  | n + 1, buf => do
    let x ← (read F.codec buf).toOption
    let r ← readDofs F n x.2
    some (x.1 :: r.1, r.2)

/-- `scatterTMP`, lines 180-215, and `scatter`, lines 218-233: the maps after the call, and what is left in the buffer. -/
def scatter (F : Field Byte K) (id : E → I) (e : E) (codim : Nat) : List (Entry E I K) → List Byte → Option (List (DofMap I K) × List Byte)
  | [], buf => some ([], buf)
  | x :: xs, buf => do
    let r ← if x.space.hasDOFs codim then do
        let n ← (read F.codec buf).toOption
        let d ← readDofs F (F.toSize n.1) n.2
        some (insertNew x.map (id e) d.1, d.2)
      else some (x.map, buf)
    let s ← scatter F id e codim xs r.2
    some (r.1 :: s.1, s.2)

/-- The vectors, spaces and maps on all processes: of pack `k`, vector `j`, process `p`. Used for `exec`, gridfunctionspace/loadbalance.hh:401. -/
structure State (E I K : Type) where
  space : Nat → Space E
  vec : Nat → Nat → Nat → Nat → K
  map : Nat → Nat → Nat → DofMap I K

/-- What the recursion through packs and vectors does, in its order. Used for `iterateTuple`, gridfunctionspace/loadbalance.hh:390-442. -/
inductive Op where
  | fill (k j : Nat)
  | balance (tuple : List (Nat × Nat))
  | update (k : Nat)
  | restore (k j : Nat)
  deriving DecidableEq, Repr

/-- `iterateTuple`, lines 390-442, with `n` vectors of pack `k` left, beginning with number `j`: `tuple` are the vectors whose maps have been
put into the tuple; `next` is `iteratePacks` for the packs that follow. -/
def iterateTuple (k : Nat) (next : List (Nat × Nat) → List Op) (j : Nat) (tuple : List (Nat × Nat)) : Nat → List Op
  | 0 => next tuple ++ [.update k]
  | n + 1 => .fill k j :: iterateTuple k next (j + 1) (tuple ++ [(k, j)]) n ++ [.restore k j]

/-- `iteratePacks`, lines 451-463 and 479-483: the list are the numbers of vectors of the packs `k`, `k + 1`, …. -/
def iteratePacks : List Nat → Nat → List (Nat × Nat) → List Op
  | [], _, tuple => [.balance tuple]
  | n :: rest, k, tuple => iterateTuple k (iteratePacks rest (k + 1)) 0 tuple n

/-- `loadBalanceGrid`, lines 498-506: `packs` are the numbers of vectors of the packs. -/
def ops (packs : List Nat) : List Op := iteratePacks packs 0 []

/-- The tuple of the data handle on process `p`. Used for `exec`, gridfunctionspace/loadbalance.hh:401. -/
def entries (s : State E I K) (tuple : List (Nat × Nat)) (p : Nat) : List (Entry E I K) :=
  tuple.map fun x => ⟨s.space x.1, s.map x.1 x.2 p⟩

/-- The maps of the tuple on process `p` are replaced. Used for `exec`, gridfunctionspace/loadbalance.hh:401. -/
def setMaps (s : State E I K) (p : Nat) : List (Nat × Nat) → List (DofMap I K) → State E I K
  | x :: xs, m :: ms =>
    setMaps { s with map := fun k j q => if k = x.1 ∧ j = x.2 ∧ q = p then m else s.map k j q } p xs ms
  | _, _ => s

/-- The grid calls `gather` on the process that sends and `scatter` on the one that receives. Used for `exec`, gridfunctionspace/loadbalance.hh:401. -/
def transfer (F : Field Byte K) (id : E → I) (tuple : List (Nat × Nat)) (s : State E I K) (t : Transfer E) : Option (State E I K) := do
  let buf ← gather F id t.src t.entity t.codim (entries s tuple t.src) []
  let r ← scatter F id t.entity t.codim (entries s tuple t.dst) buf
  some (setMaps s t.dst tuple r.1)

/-- One operation. `dim` is the dimension of the grid, `ts` what the grid sends, `new` the spaces after `update(true)` (line 401). Restoring a vector:
lines 439-441. -/
def exec [Zero K] (F : Field Byte K) (id : E → I) (dim procs : Nat) (ts : List (Transfer E)) (new : Nat → Space E) (s : State E I K) :
    Op → Option (State E I K)
  | .fill k j => some { s with map := fun k' j' p =>
      if k' = k ∧ j' = j then fillMap id (s.space k) p (s.vec k j p) dim (fun _ => none) else s.map k' j' p }
  | .balance tuple => ts.foldlM (transfer F id tuple) s
  | .update k => some { s with space := fun k' => if k' = k then new k else s.space k' }
  | .restore k j => (List.range procs).foldlM (fun s p =>
      (readMap id (s.space k) p (s.map k j p) dim (fun _ => 0)).map fun v =>
        { s with vec := fun k' j' q => if k' = k ∧ j' = j ∧ q = p then v else s.vec k' j' q }) s

/-- `loadBalanceGrid`, lines 498-506, on all processes. -/
def run [Zero K] (F : Field Byte K) (id : E → I) (dim procs : Nat) (ts : List (Transfer E)) (new : Nat → Space E) (packs : List Nat)
    (s : State E I K) : Option (State E I K) :=
  (ops packs).foldlM (exec F id dim procs ts new) s

end Verif.LoadBalance
