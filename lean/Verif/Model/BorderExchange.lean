/-
Model of the exchange of matrix patterns and matrix entries on the border of nonoverlapping processes.

Sources: dune/pdelab/common/borderindexidcache.hh, dune/pdelab/gridoperator/common/borderdofexchanger.hh,
dune/pdelab/gridoperator/default/patternengine.hh, dune/pdelab/gridoperator/onestep.hh (under /repo).

Simplifications: geometry types and tree indices are numbers; hash maps are functions, a hash set is the list of its elements in the order of
insertion. Vectors of flags have a size, access out of range (undefined behaviour) and exceptions are `none`. A communication gathers the data
of all processes before any message is scattered; messages are scattered in the order of the list. All entities of the interface are in the
entity set (the interior and border partition).
-/
namespace Verif.BorderExchange

/-! ### BorderIndexIdCache -/

/-- An entity of the interior and border partition: global index of its geometry type, index, global id, and whether its partition type is border.
Source: what borderindexidcache.hh:167-179 asks of an entity. -/
structure Ent where
  gt : Nat
  index : Nat
  id : Nat
  border : Bool
deriving DecidableEq

/-- What the cache asks of the space and the entity set of one process. Source: borderindexidcache.hh:93-109, 162-167. -/
structure View where
  dim : Nat
  /-- `GlobalGeometryTypeIndex::size(dim)` -/
  numTypes : Nat
  /-- `ordering().contains(codim)` -/
  contains : Nat → Bool
  /-- `indexSet().types(codim)` -/
  types : Nat → List Nat
  /-- `indexSet().size(gt)` -/
  size : Nat → Nat
  /-- `entities(entitySet,Codim<codim>,Partitions::interiorBorder)` -/
  ents : Nat → List Ent

/-- The members of `BorderIndexIdCache`, borderindexidcache.hh:66-82, 150-154: the vector of vectors of flags, the maps from indices to ids and back. -/
structure Cache where
  numTypes : Nat
  size : Nat → Nat
  flag : Nat → Nat → Bool
  toId : Nat → Nat → Option Nat
  toIndex : Nat → Option (Nat × Nat)

/-- The cache before the constructor calls `update`, borderindexidcache.hh:84-89. -/
def Cache.empty : Cache := ⟨0, fun _ => 0, fun _ _ => false, fun _ _ => none, fun _ => none⟩

/-- The cleaning for one geometry type, borderindexidcache.hh:107-108: `resize` of the flags (new flags are false), `clear` of the map. Out of range is
undefined. -/
def Cache.clean (v : View) (c : Cache) (gt : Nat) : Option Cache :=
  if gt < c.numTypes then
    some { c with
      size := fun g => if g = gt then v.size gt else c.size g
      flag := fun g i => if g = gt then (if i < c.size g then c.flag g i else false) else c.flag g i
      toId := fun g => if g = gt then fun _ => none else c.toId g }
  else none

/-- One entity in `create_for_codim`, borderindexidcache.hh:169-179. -/
def Cache.enter (c : Cache) (e : Ent) : Option Cache :=
  if e.gt < c.numTypes ∧ e.index < c.size e.gt then
    let c := { c with flag := fun g i => if g = e.gt ∧ i = e.index then e.border else c.flag g i }
    if e.border then
      some { c with
        toId := fun g i => if g = e.gt ∧ i = e.index then some e.id else c.toId g i
        toIndex := fun k => if k = e.id then some (e.gt, e.index) else c.toIndex k }
    else some c
  else none

/-- `create_for_codim<codim>`, borderindexidcache.hh:156-201, for grids that have all iterators. -/
def Cache.create (v : View) : Nat → Cache → Option Cache
  | 0, c => some c
  | codim + 1, c => do
    let c ← if v.contains (codim + 1) then (v.ents (codim + 1)).foldlM Cache.enter c else some c
    Cache.create v codim c

/-- `update`, borderindexidcache.hh:91-112. The two outer vectors are resized; the map from ids to indices is not cleared. -/
def Cache.update (v : View) (c : Cache) : Option Cache := do
  let c := { c with
    numTypes := v.numTypes
    size := fun g => if g < c.numTypes then c.size g else 0
    toId := fun g => if g < c.numTypes then c.toId g else fun _ => none }
  let c ← (List.range v.dim).foldlM (fun c k => if v.contains (k + 1) then (v.types (k + 1)).foldlM (Cache.clean v) c else some c) c
  Cache.create v v.dim c

/-- `isBorderEntity`, borderindexidcache.hh:114-117. -/
def Cache.isBorder (c : Cache) (gt i : Nat) : Option Bool := if gt < c.numTypes ∧ i < c.size gt then some (c.flag gt i) else none

/-- `id`, borderindexidcache.hh:119-127. -/
def Cache.id (c : Cache) (gt i : Nat) : Option Nat := if gt < c.numTypes then c.toId gt i else none

/-- `index` (`none`: exception) and `findIndex` (`none`: `false`), borderindexidcache.hh:129-146. -/
def Cache.findIndex (c : Cache) (id : Nat) : Option (Nat × Nat) := c.toIndex id

/-! ### CommunicationCache -/

/-- A `DOFIndex`: geometry type and index of the entity, tree index. Source: borderdofexchanger.hh:177-193 and common/dofindex.hh:30-330. -/
structure Dof where
  gt : Nat
  index : Nat
  tree : Nat
deriving DecidableEq

/-- A link of a local pattern: DOF indices and whether they are constrained. Source: borderdofexchanger.hh:177-193. -/
structure Link where
  row : Dof
  col : Dof
  rowConstrained : Bool
  colConstrained : Bool

/-- `BorderPattern`, borderdofexchanger.hh:91-94: the row DOFs with the sets of their columns (`GlobalDOFIndex`: id and tree index). -/
abbrev BorderPattern := Dof → Option (List (Nat × Nat))

/-- `_border_pattern[di].insert(x)`. Source: borderdofexchanger.hh:200. -/
def BorderPattern.insert (b : BorderPattern) (di : Dof) (x : Nat × Nat) : BorderPattern := fun d =>
  if d = di then
    match b di with
    | some s => some (if x ∈ s then s else s ++ [x])
    | none => some [x]
  else b d

/-- The body of the loop of `addEntries`, borderdofexchanger.hh:182-200. -/
def addEntry (c : Cache) (b : BorderPattern) (l : Link) : Option BorderPattern :=
  if l.rowConstrained || l.colConstrained then some b
  else do
    let r ← c.isBorder l.row.gt l.row.index
    if r = false then some b
    else
      let s ← c.isBorder l.col.gt l.col.index
      if s = false then some b
      else
        let id ← c.id l.col.gt l.col.index
        some (b.insert l.row (id, l.col.tree))

/-- `addEntries`, borderdofexchanger.hh:172-202. -/
def addEntries (c : Cache) (b : BorderPattern) (links : List Link) : Option BorderPattern := links.foldlM (addEntry c) b

/-- `size`, borderdofexchanger.hh:205-221; `trees` are the tree indices of the DOFs of the entity in the order of the entity index cache. -/
def size (b : BorderPattern) (gt index : Nat) (trees : List Nat) : Nat :=
  trees.foldl (fun n t => match b ⟨gt, index, t⟩ with
    | none => n
    | some s => n + s.length) 0

/-- `gather_pattern`, borderdofexchanger.hh:217-234. -/
def gatherPattern (b : BorderPattern) (gt index : Nat) (trees : List Nat) : List (Nat × Nat × Nat) :=
  trees.flatMap fun t => match b ⟨gt, index, t⟩ with
    | none => []
    | some s => s.map fun x => (t, x)

/-- A matrix of one process: the pattern and the entries. Source: the matrix accessed in borderdofexchanger.hh:262, 466. -/
structure Mat (K : Type) where
  pattern : Nat → Nat → Bool
  val : Nat → Nat → K

/-- `matrix(i,j)`: entries outside the pattern are an exception. Source: borderdofexchanger.hh:262. -/
def Mat.get {K : Type} (A : Mat K) (i j : Nat) : Option K := if A.pattern i j then some (A.val i j) else none

/-- `matrix(i,j) += x`. Source: borderdofexchanger.hh:466. -/
def Mat.add {K : Type} [Add K] (A : Mat K) (i j : Nat) (x : K) : Option (Mat K) :=
  if A.pattern i j then some { A with val := fun i' j' => if i' = i ∧ j' = j then A.val i' j' + x else A.val i' j' } else none

/-- The inner loop of `gather_data`, borderdofexchanger.hh:253-263. -/
def gatherRow {K : Type} (c : Cache) (mapV mapU : Dof → Nat) (A : Mat K) (row : Dof) : List (Nat × Nat) → Option (List (Nat × (Nat × Nat) × K))
  | [] => some []
  | x :: s => do
    let e ← c.findIndex x.1
    let a ← A.get (mapV row) (mapU ⟨e.1, e.2, x.2⟩)
    let rest ← gatherRow c mapV mapU A row s
    some ((row.tree, x, a) :: rest)

/-- `gather_data`, borderdofexchanger.hh:242-265. -/
def gatherData {K : Type} (c : Cache) (b : BorderPattern) (mapV mapU : Dof → Nat) (A : Mat K) (gt index : Nat) :
    List Nat → Option (List (Nat × (Nat × Nat) × K))
  | [] => some []
  | t :: ts => do
    let first ← match b ⟨gt, index, t⟩ with
      | none => some []
      | some s => gatherRow c mapV mapU A ⟨gt, index, t⟩ s
    let rest ← gatherData c b mapV mapU A gt index ts
    some (first ++ rest)

/-! ### Communication -/

/-- What the exchange uses on all processes: caches, DOFs of entities, `mapIndex` of the orderings of test and trial space.
Source: borderdofexchanger.hh:139, 262, 370, 380-390, 466. -/
structure Machine where
  procs : Nat
  cache : Nat → Cache
  dofs : Nat → Nat → Nat → List Nat
  mapV : Nat → Dof → Nat
  mapU : Nat → Dof → Nat

/-- A message for an entity shared by `src` and `dst`: geometry type and index on both.
Source: the communication called in default/patternengine.hh:269-282 and borderdofexchanger.hh:498-510. -/
structure Message where
  src : Nat
  dst : Nat
  sent : Nat × Nat
  received : Nat × Nat
deriving DecidableEq

/-- Reading `n` items from the message buffer. Source: borderdofexchanger.hh:352, 448. -/
def readItems {A : Type} (n : Nat) (buf : List A) : Option (List A) := if n ≤ buf.length then some (buf.take n) else none

/-- The body of the loop of `PatternExtender::scatter`, borderdofexchanger.hh:349-371. -/
def scatterLink (M : Machine) (m : Message) (P : Nat → Nat → Bool) (x : Nat × Nat × Nat) : Nat → Nat → Bool :=
  match (M.cache m.dst).findIndex x.2.1 with
  | none => P
  | some e => fun r c => P r c || (r == M.mapV m.dst ⟨m.received.1, m.received.2, x.1⟩ && c == M.mapU m.dst ⟨e.1, e.2, x.2.2⟩)

/-- One message of the `PatternExtender`, borderdofexchanger.hh:321-372. -/
def deliverPattern (M : Machine) (b : Nat → BorderPattern) (P : Nat → Nat → Nat → Bool) (m : Message) : Option (Nat → Nat → Nat → Bool) := do
  let trees := M.dofs m.src m.sent.1 m.sent.2
  let items ← readItems (size (b m.src) m.sent.1 m.sent.2 trees) (gatherPattern (b m.src) m.sent.1 m.sent.2 trees)
  some fun q => if q = m.dst then items.foldl (scatterLink M m) (P q) else P q

/-- The communication in `post_border_pattern_assembly`, default/patternengine.hh:269-282. -/
def extendPattern (M : Machine) (b : Nat → BorderPattern) (msgs : List Message) (P : Nat → Nat → Nat → Bool) : Option (Nat → Nat → Nat → Bool) :=
  msgs.foldlM (deliverPattern M b) P

/-- The body of the loop of `EntryAccumulator::scatter`, borderdofexchanger.hh:445-467; `mapR` and `mapC` belong to its members `_gfsv` and `_gfsu`. -/
def scatterEntry {K : Type} [Add K] (M : Machine) (mapR mapC : Nat → Dof → Nat) (m : Message) (A : Mat K) (x : Nat × (Nat × Nat) × K) : Option (Mat K) :=
  match (M.cache m.dst).findIndex x.2.1.1 with
  | none => some A
  | some e => A.add (mapR m.dst ⟨m.received.1, m.received.2, x.1⟩) (mapC m.dst ⟨e.1, e.2, x.2.1.2⟩) x.2.2

/-- One message of the `EntryAccumulator`, borderdofexchanger.hh:419-468: the data of the sender are those from before the communication. -/
def deliverEntries {K : Type} [Add K] (M : Machine) (mapR mapC : Nat → Dof → Nat) (b : Nat → BorderPattern) (A : Nat → Mat K) (S : Nat → Mat K)
    (m : Message) : Option (Nat → Mat K) := do
  let trees := M.dofs m.src m.sent.1 m.sent.2
  let data ← gatherData (M.cache m.src) (b m.src) (M.mapV m.src) (M.mapU m.src) (A m.src) m.sent.1 m.sent.2 trees
  let items ← readItems (size (b m.src) m.sent.1 m.sent.2 trees) data
  let B ← items.foldlM (scatterEntry M mapR mapC m) (S m.dst)
  some fun q => if q = m.dst then B else S q

/-- `accumulateBorderEntries`, borderdofexchanger.hh:498-510, and `GridOperator::make_consistent`, gridoperator.hh:216-219: the test space is passed
for the parameter `gfsu` of the `EntryAccumulator`, the trial space for `gfsv`. -/
def accumulate {K : Type} [Add K] (M : Machine) (b : Nat → BorderPattern) (msgs : List Message) (A : Nat → Mat K) : Option (Nat → Mat K) :=
  if M.procs > 1 then msgs.foldlM (deliverEntries M M.mapU M.mapV b A) A else some A

/-! ### Assembling -/

/-- `add_pattern` for all local patterns of a process, default/patternengine.hh:145-158, restricted to the links between unconstrained DOFs
(`add_entry` for constrained DOFs is the subject of other properties). -/
def localPattern (mapV mapU : Dof → Nat) (links : List Link) (P : Nat → Nat → Bool) : Nat → Nat → Bool :=
  links.foldl (fun P l => if l.rowConstrained || l.colConstrained then P
    else fun r c => P r c || (r == mapV l.row && c == mapU l.col)) P

/-- `fill_pattern` of a grid operator on all processes: default/patternengine.hh:129-158, 262-285. `P` are the links of constrained DOFs. -/
def fillPattern (M : Machine) (links : Nat → List (List Link)) (msgs : List Message) (P : Nat → Nat → Nat → Bool) :
    Option ((Nat → BorderPattern) × (Nat → Nat → Nat → Bool)) :=
  let b p := (links p).foldlM (addEntries (M.cache p)) fun _ => none
  if (List.range M.procs).all fun p => (b p).isSome then
    let b' p := (b p).getD fun _ => none
    (extendPattern M b' msgs fun p => (links p).foldl (fun P l => localPattern (M.mapV p) (M.mapU p) l P) (P p)).map fun P' => (b', P')
  else none

/-- `fill_pattern` of the one step grid operator for two grid operators with the local patterns `links0` and `links1`: both collect border patterns and add
their local patterns, onestep/patternengine.hh:62-89; `setupGridOperators` lets only the second one do postprocessing, gridoperator.hh:122-150, so
only its border pattern extends the pattern. The result contains the border patterns of both. -/
def fillPatternOneStep (M : Machine) (links0 links1 : Nat → List (List Link)) (msgs : List Message) (P : Nat → Nat → Nat → Bool) :
    Option ((Nat → BorderPattern) × (Nat → BorderPattern) × (Nat → Nat → Nat → Bool)) :=
  let b0 p := (links0 p).foldlM (addEntries (M.cache p)) fun _ => none
  if (List.range M.procs).all fun p => (b0 p).isSome then
    (fillPattern M links1 msgs fun p => (links0 p).foldl (fun P l => localPattern (M.mapV p) (M.mapU p) l P) (P p)).map fun (b1, P') =>
      (fun p => (b0 p).getD fun _ => none, b1, P')
  else none

end Verif.BorderExchange
