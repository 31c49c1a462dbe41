/-
Model of the partitions of entity sets for concurrent assembly.

Sources: dune/pdelab/common/partition/iteratorsplit.hh, dune/pdelab/common/partition/halo/colored.hh,
dune/pdelab/common/partition/halo/uncolored.hh, dune/pdelab/common/partition/halo/region.hh (all under /repo).

Simplifications: elements and sub-entities are given by their mapper indices; a grid is described by the sub-entities (of all
codimensions, the element itself included) and the neighbours of every element. Halo distances are the finite ones; the two special
values of region.hh:21,24 are handled before any of the modelled code runs.
-/
namespace Verif.Partition

/-! ### Splitting by iterators -/

/-- The number of entities per patch in the automatic choice, iteratorsplit.hh:79-84. -/
def entitiesPerPatch (dim : Nat) : Nat :=
  match dim with
  | 1 => 125
  | 2 => 250
  | _ => 500

/-- Lines 78-86 of iteratorsplit.hh. -/
def choosePatches (dim patches n : Nat) : Nat :=
  if patches = 0 then max 1 (n / entitiesPerPatch dim) else patches

/-- The loop in lines 98-104 of iteratorsplit.hh, `k` iterations to go, and the last chunk, line 107. `rest` is the range from `begin_it`
to the end. `none`: an iterator is advanced behind the end. -/
def splitLoop {α : Type} : Nat → Nat → Nat → List α → Option (List (List α))
  | 0, _, _, rest => some [rest]
  | k + 1, chunk, remainder, rest =>
    let m := chunk + (if remainder ≠ 0 then 1 else 0)
    if rest.length < m then none
    else
      match splitLoop k chunk (if remainder ≠ 0 then remainder - 1 else remainder) (rest.drop m) with
      | none => none
      | some ps => some (rest.take m :: ps)

/-- `IteratorSplitMixin::update`, iteratorsplit.hh:75-109: the new value of `_patches` and the patches. -/
def split {α : Type} (dim patches : Nat) (elements : List α) : Option (Nat × List (List α)) :=
  let p := choosePatches dim patches elements.length
  match splitLoop (p - 1) (elements.length / p) (elements.length % p) elements with
  | none => none
  | some ps => some (p, ps)

/-! ### Connectivity of patches -/

/-- A grid: sub-entities of elements, and neighbours across intersections. Used for `markEntity`, colored.hh:138-151. -/
structure Grid where
  sub : Nat → List Nat
  nbr : Nat → List Nat

/-- `MatrixIndexSet::add` on one row (dune-istl): insertion into a sorted set. Used for `visitSub`, colored.hh:141-148. -/
def rowAdd : List Nat → Nat → List Nat
  | [], x => [x]
  | y :: ys, x => if x = y then y :: ys else if x < y then x :: y :: ys else y :: rowAdd ys x

/-- Replace the value of a table at one place. Used for `visitSub`, colored.hh:141-148. -/
def upd {α : Type} (f : Nat → α) (i : Nat) (a : α) : Nat → α := fun j => if j = i then a else f j

/-- `patch_links` and `entity_owners`, colored.hh:134-135, by rows. -/
structure Links where
  links : Nat → List Nat
  owners : Nat → List Nat

/-- The body of the loop over sub-entities in `mark_entity_overlap`, colored.hh:141-148. -/
def visitSub (id : Nat) (st : Links) (s : Nat) : Links :=
  let links := (st.owners s).foldl (fun l owner =>
    let l := upd l owner (rowAdd (l owner) id)
    upd l id (rowAdd (l id) owner)) st.links
  ⟨links, upd st.owners s (rowAdd (st.owners s) id)⟩

/-- `mark_entity_overlap`, colored.hh:138-151. -/
def markEntity (g : Grid) (id : Nat) (st : Links) (e : Nat) : Links := (g.sub e).foldl (visitSub id) st

/-- `mark_overlap`, colored.hh:154-162. -/
def markOverlap (g : Grid) (id : Nat) : Nat → Links → Nat → Links
  | 0, st, e => markEntity g id st e
  | d + 1, st, e => (g.nbr e).foldl (fun st o => markOverlap g id d st o) (markEntity g id st e)

/-- The loop over all patches in `makeGraph`, colored.hh:164-172; `id` is the number of the first patch in the list. -/
def markPatches (g : Grid) (d : Nat) : Nat → List (List Nat) → Links → Links
  | _, [], st => st
  | id, p :: ps, st => markPatches g d (id + 1) ps (p.foldl (fun st e => markOverlap g id d st e) st)

/-- A graph by rows; the conversion to compressed rows, colored.hh:174-185 and 74-88, is not modelled. -/
structure Graph where
  size : Nat
  row : Nat → List Nat

/-- `makeGraph`, colored.hh:124-186. -/
def makeGraph (g : Grid) (d : Nat) (patches : List (List Nat)) : Graph :=
  ⟨patches.length, (markPatches g d 0 patches ⟨fun _ => [], fun _ => []⟩).links⟩

/-! ### Coloring -/

/-- Exceptions of `makeColors` (colored.hh:204, 253, 255, 257) and undefined behaviour (erasing the end iterator of the queue, line 241, or
not terminating within the number of steps granted). -/
inductive ColorErr where
  | degreeTooLarge
  | incorrect
  | uncolored
  | unexpectedColor
  | undefined
  deriving DecidableEq, Repr

/-- Entries of the queue, colored.hh:199: saturation, degree, vertex. -/
abbrev Entry := Nat × Nat × Nat

/-- `std::array` comparison `a > b`, lexicographically. Used for `initQueue`, colored.hh:202-209. -/
def entryGt (a b : Entry) : Bool :=
  a.1 > b.1 || (a.1 = b.1 && (a.2.1 > b.2.1 || (a.2.1 = b.2.1 && a.2.2 > b.2.2)))

/-- `emplace` into `std::set<…,std::greater<>>`: a list in descending order without duplicates. Used for `initQueue`, colored.hh:202-209. -/
def queueInsert (a : Entry) : List Entry → List Entry
  | [] => [a]
  | b :: q => if a = b then b :: q else if entryGt a b then a :: b :: q else b :: queueInsert a q

/-- The variables of `makeColors`, colored.hh:192-199; `none` is `uncolored`. -/
structure ColorState where
  color : Nat → Option Nat
  degree : Nat → Nat
  adjacent : Nat → List Nat
  used : Nat → Bool
  maxColor : Nat
  queue : List Entry

/-- The initialisation loop, colored.hh:202-209, from vertex `v` on, `k` vertices to go. -/
def initQueue (g : Graph) : Nat → Nat → ColorState → Except ColorErr ColorState
  | 0, _, st => .ok st
  | k + 1, v, st =>
    if (g.row v).length ≥ 255 then .error .degreeTooLarge
    else initQueue g k (v + 1)
      { st with degree := upd st.degree v (g.row v).length, queue := queueInsert (0, (g.row v).length, v) st.queue }

/-- Lines 220-222 and 228-230 of colored.hh: set the flags of the colors of colored neighbours. -/
def setUsed (color : Nat → Option Nat) (value : Bool) (nbrs : List Nat) (used : Nat → Bool) : Nat → Bool :=
  nbrs.foldl (fun u w => match color w with
    | some c => upd u c value
    | none => u) used

/-- Lines 224-226 of colored.hh: count up from `c` while the color is used, at most `k` times. -/
def lowestColor (used : Nat → Bool) : Nat → Nat → Nat
  | 0, c => c
  | k + 1, c => if used c then lowestColor used k (c + 1) else c

/-- The loop in lines 237-246 of colored.hh; `degree` is an `unsigned char`. -/
def updateQueue (thisColor : Nat) : List Nat → ColorState → Except ColorErr ColorState
  | [], st => .ok st
  | w :: ws, st =>
    match st.color w with
    | some _ => updateQueue thisColor ws st
    | none =>
      let key : Entry := ((st.adjacent w).length, st.degree w, w)
      if key ∈ st.queue then
        let adj := rowAdd (st.adjacent w) thisColor
        let deg := (st.degree w + 255) % 256
        updateQueue thisColor ws
          { st with adjacent := upd st.adjacent w adj, degree := upd st.degree w deg,
                    queue := queueInsert (adj.length, deg, w) (st.queue.erase key) }
      else .error .undefined

/-- One iteration of the main loop, colored.hh:212-247, for the vertex `node` taken from the queue. -/
def colorNode (g : Graph) (node : Nat) (st : ColorState) : Except ColorErr ColorState :=
  let used := setUsed st.color true (g.row node) st.used
  let c := lowestColor used g.size 0
  let used := setUsed st.color false (g.row node) used
  updateQueue c (g.row node) { st with used := used, color := upd st.color node (some c), maxColor := max st.maxColor c }

/-- The main loop, colored.hh:212-247, with a bound for the number of iterations. -/
def colorLoop (g : Graph) : Nat → ColorState → Except ColorErr ColorState
  | fuel, st =>
    match st.queue with
    | [] => .ok st
    | (_, _, node) :: q =>
      match fuel with
      | 0 => .error .undefined
      | fuel + 1 =>
        match colorNode g node { st with queue := q } with
        | .error e => .error e
        | .ok st => colorLoop g fuel st

/-- The checks for one vertex, colored.hh:251-258. -/
def checkVertex (color : Nat → Option Nat) (maxColor v : Nat) : List Nat → Except ColorErr Unit
  | [] => .ok ()
  | w :: ws =>
    if v ≠ w ∧ color v = color w then .error .incorrect
    else
      match color v with
      | none => .error .uncolored
      | some c => if c ≥ maxColor + 1 then .error .unexpectedColor else checkVertex color maxColor v ws

/-- The loop over the vertices, colored.hh:249-258. -/
def checkAll (g : Graph) (color : Nat → Option Nat) (maxColor : Nat) : Nat → Nat → Except ColorErr Unit
  | 0, _ => .ok ()
  | k + 1, v =>
    match checkVertex color maxColor v (g.row v) with
    | .error e => .error e
    | .ok () => checkAll g color maxColor k (v + 1)

/-- `makeColors`, colored.hh:189-261: the colors and their number. -/
def makeColors (g : Graph) : Except ColorErr ((Nat → Option Nat) × Nat) :=
  match initQueue g g.size 0 ⟨fun _ => none, fun _ => 0, fun _ => [], fun _ => false, 0, []⟩ with
  | .error e => .error e
  | .ok st =>
    match colorLoop g g.size st with
    | .error e => .error e
    | .ok st =>
      match checkAll g st.color st.maxColor g.size 0 with
      | .error e => .error e
      | .ok () => .ok (st.color, st.maxColor + 1)

/-- Distributing the patches to the label sets, colored.hh:114-118, from patch number `id` on. `none`: an access outside of the label
sets. -/
def distribute (color : Nat → Option Nat) : Nat → List (List Nat) → List (List (List Nat)) → Option (List (List (List Nat)))
  | _, [], labels => some labels
  | id, p :: ps, labels =>
    match color id with
    | none => none
    | some c => if c < labels.length then distribute color (id + 1) ps (labels.set c (labels.getD c [] ++ [p])) else none

/-- `ColoredHaloAdaptor::update` for finite halo distances, colored.hh:92-119. -/
def coloredUpdate (g : Grid) (d : Nat) (patches : List (List Nat)) : Except ColorErr (Option (List (List (List Nat)))) :=
  match makeColors (makeGraph g d patches) with
  | .error e => .error e
  | .ok (color, count) => .ok (distribute color 0 patches (List.replicate count []))

/-! ### Concurrent marking of the halo -/

/-- The value of `entity_owner` for sub-entities which are not owned, uncolored.hh:169. -/
def noOwner (patches : Nat) : Nat := patches

/-- The atomic operations of the threads, uncolored.hh:107-151. `storeOwner s id`: line 111. `loadOwner s`: line 121, into a register of the
thread. `storeOverlap s id`: lines 122-123. `loadOverlap s`: line 145. `storeHalo e`: lines 146-148. -/
inductive Op where
  | storeOwner (s id : Nat)
  | loadOwner (s : Nat)
  | storeOverlap (s id : Nat)
  | loadOverlap (s : Nat)
  | storeHalo (e : Nat)
  deriving DecidableEq

/-- The shared arrays `entity_owner`, `entity_in_overlap`, `entity_in_halo` (uncolored.hh:79-81) and the registers of the threads. -/
structure Shared where
  owner : Nat → Nat
  overlap : Nat → Bool
  halo : Nat → Bool
  regOwner : Nat → Nat
  regOverlap : Nat → Bool

/-- One atomic operation of thread `t`. Used for `LabelRun`, uncolored.hh:168-179. -/
def exec (st : Shared) (t : Nat) : Op → Shared
  | .storeOwner s id => { st with owner := upd st.owner s id }
  | .loadOwner s => { st with regOwner := upd st.regOwner t (st.owner s) }
  | .storeOverlap s id => if st.regOwner t ≠ id then { st with overlap := upd st.overlap s true } else st
  | .loadOverlap s => { st with regOverlap := upd st.regOverlap t (st.overlap s) }
  | .storeHalo e => if st.regOverlap t then { st with halo := upd st.halo e true } else st

/-- A schedule: which thread performs which operation, one after the other. Used for `LabelRun`, uncolored.hh:168-179. -/
def execAll (st : Shared) (trace : List (Nat × Op)) : Shared := trace.foldl (fun st o => exec st o.1 o.2) st

/-- `mark_owner` for one element, uncolored.hh:107-114. -/
def progOwner (g : Grid) (id e : Nat) : List Op := (g.sub e).map fun s => .storeOwner s id

/-- `mark_entity_overlap`, uncolored.hh:117-126. -/
def progEntity (g : Grid) (id e : Nat) : List Op := (g.sub e).flatMap fun s => [.loadOwner s, .storeOverlap s id]

/-- `mark_overlap`, uncolored.hh:129-137. -/
def progOverlap (g : Grid) (id : Nat) : Nat → Nat → List Op
  | 0, e => progEntity g id e
  | d + 1, e => progEntity g id e ++ (g.nbr e).flatMap fun o => progOverlap g id d o

/-- `propagate_overlap`, uncolored.hh:140-151. -/
def progHalo (g : Grid) (e : Nat) : List Op := (g.sub e).flatMap fun s => [.loadOverlap s, .storeHalo e]

/-- The program of the thread working on patch `id` in each of the three phases, uncolored.hh:154-165 and 172-179. -/
def phase1 (g : Grid) (patches : List (List Nat)) (id : Nat) : List Op := (patches.getD id []).flatMap fun e => progOwner g id e
/-- The second phase, uncolored.hh:154-165 and 172-179. -/
def phase2 (g : Grid) (d : Nat) (patches : List (List Nat)) (id : Nat) : List Op :=
  (patches.getD id []).flatMap fun e => progOverlap g id d e
/-- The third phase, uncolored.hh:154-165 and 172-179. -/
def phase3 (g : Grid) (patches : List (List Nat)) (id : Nat) : List Op := (patches.getD id []).flatMap fun e => progHalo g e

/-- A trace is an interleaving of the programs of the threads: the operations of each thread occur in its program's order, and no others.
(Patches may also be handled by the same thread, one after the other; these are special interleavings.) Used for `LabelRun`, uncolored.hh:168-179. -/
def Interleaving (prog : Nat → List Op) (trace : List (Nat × Op)) : Prop :=
  ∀ t, (trace.filter fun o => o.1 = t).map (·.2) = prog t

/-- One label set, uncolored.hh:168-179: the arrays are cleaned up, and the three phases run one after the other, each with an arbitrary
interleaving. -/
inductive LabelRun (g : Grid) (d : Nat) (patches : List (List Nat)) : (Nat → Bool) → (Nat → Bool) → Prop
  | run (halo : Nat → Bool) (regO : Nat → Nat) (regB : Nat → Bool) (t1 t2 t3 : List (Nat × Op))
      (h1 : Interleaving (phase1 g patches) t1) (h2 : Interleaving (phase2 g d patches) t2) (h3 : Interleaving (phase3 g patches) t3) :
      LabelRun g d patches halo
        (execAll ⟨fun _ => noOwner patches.length, fun _ => false, halo, regO, regB⟩ (t1 ++ t2 ++ t3)).halo

/-- `updateHalo` for finite halo distances, uncolored.hh:58-184: all label sets, one after the other. -/
inductive HaloRun (g : Grid) (d : Nat) : List (List (List Nat)) → (Nat → Bool) → (Nat → Bool) → Prop
  | nil (h) : HaloRun g d [] h h
  | cons {label labels h h' h''} : LabelRun g d label h h' → HaloRun g d labels h' h'' → HaloRun g d (label :: labels) h h''

end Verif.Partition
