import Mathlib.Algebra.Ring.Defs

/-!
# Storage of vectors and matrices of the backends

Model of the wrappers around containers: `ISTL::BlockVector`
(`dune/pdelab/backend/istl/vector.hh`), `Simple::VectorContainer`
(`dune/pdelab/backend/simple/vector.hh`), `Eigen::VectorContainer`
(`dune/pdelab/backend/eigen/vector.hh`), `Simple::MatrixContainer`
(`dune/pdelab/backend/simple/matrix.hh`) and `ISTL::BCRSMatrix`
(`dune/pdelab/backend/istl/bcrsmatrix.hh`).

A wrapper has a pointer to a container.  Containers live on a heap and are
identified by addresses; a container of a vector is represented by the list of
its entries (for ISTL containers: in the order of the iterator over all
entries).  Containers are never removed from the heap: a container which is not
referenced any more is not observable.  Objects are numbered in the order of
their construction.  Dereferencing an empty pointer and access outside of a
container are undefined behaviour, represented by `none`.
-/

set_option linter.unusedSectionVars false

namespace Verif.BackendStorage

/-! ## Vectors -/

/-- Heap of containers, and for each vector its pointer `_container`. Source: simple/vector.hh:294, istl/vector.hh:349. -/
structure State (K : Type) where
  heap : List (List K)
  vecs : List (Option Nat)

/-- Nothing has been constructed yet. Source: the state before the constructors istl/vector.hh:62-120 are called. -/
def State.init {K : Type} : State K := ⟨[], []⟩

variable {K : Type} [Ring K]

/-- `*_container` of a vector (`native()`). Source: istl/vector.hh:288-291. -/
def State.address (st : State K) (i : Nat) : Option Nat := (st.vecs[i]?).join

/-- The entries of a vector, as seen by its user: `none` if it is not attached. Source: istl/vector.hh:168-171, 288-291. -/
def State.value (st : State K) (i : Nat) : Option (List K) :=
  match st.address i with
  | none => none
  | some a => st.heap[a]?

/-- `resize()` (istl/vector.hh:137-144, simple/vector.hh:96): the first entries
are kept, new entries are zero. -/
def resize (n : Nat) (c : List K) : List K :=
  c.take n ++ List.replicate (n - c.length) 0

/-- A new vector with a new container: `std::make_shared<Container>`. Source: istl/vector.hh:65, 78, 102, 193, simple/vector.hh:74, 79, 101, 139. -/
def State.allocate (st : State K) (c : List K) : State K where
  heap := st.heap ++ [c]
  vecs := st.vecs ++ [some st.heap.length]

/-- An in-place loop over the entries of container `a` which reads the same entry
of container `b` (`std::transform`, simple/vector.hh:165-177 and 229-235, and the
loops of `+=`, `-=` and `axpy` of ISTL vectors): entries from `i` on, `fuel` of
them.  The containers may be the same. -/
def transformLoop (f : K → K → K) (a b : Nat) : Nat → Nat → List (List K) → Option (List (List K))
  | 0, _, heap => some heap
  | fuel + 1, i, heap =>
    match heap[a]?, heap[b]? with
    | some x, some y =>
      match x[i]?, y[i]? with
      | some xi, some yi => transformLoop f a b fuel (i + 1) (heap.set a (x.set i (f xi yi)))
      | _, _ => none
    | _, _ => none

/-- The same loop with one container (simple/vector.hh:144-163). -/
def mapLoop (f : K → K) (a : Nat) : Nat → Nat → List (List K) → Option (List (List K))
  | 0, _, heap => some heap
  | fuel + 1, i, heap =>
    match heap[a]? with
    | some x =>
      match x[i]? with
      | some xi => mapLoop f a fuel (i + 1) (heap.set a (x.set i (f xi)))
      | none => none
    | none => none

/-- What a user does.  Vectors are referred to by their numbers. Source: the methods istl/vector.hh:62-284, simple/vector.hh:72-177. -/
inductive Event (K : Type) where
  /-- a container which is not made by a vector -/
  | container (c : List K)
  /-- `BlockVector(gfs)`; `n` is the size of the space -/
  | construct (n : Nat)
  /-- `BlockVector(gfs,unattached_container)` -/
  | constructUnattached
  /-- `BlockVector(gfs,container)` with the container at address `a` -/
  | constructExternal (n a : Nat)
  /-- `BlockVector(gfs,e)` -/
  | constructValue (n : Nat) (e : K)
  /-- copy constructor; `n` is the present size of the space -/
  | copy (n i : Nat)
  /-- move constructor -/
  | move (i : Nat)
  /-- `x_i = x_j` -/
  | assign (i j : Nat)
  /-- `x_i.attach(x_j.storage())` -/
  | attach (i j : Nat)
  /-- `x_i.attach(c)` with the container at address `a` -/
  | attachContainer (i a : Nat)
  /-- `x_i.detach()` -/
  | detach (i : Nat)
  /-- `x_i = e` -/
  | fill (i : Nat) (e : K)
  /-- `x_i *= e` -/
  | scale (i : Nat) (e : K)
  /-- `x_i += e` -/
  | shift (i : Nat) (e : K)
  /-- `x_i += x_j` -/
  | add (i j : Nat)
  /-- `x_i -= x_j` -/
  | sub (i j : Nat)
  /-- `x_i.axpy(a,x_j)` -/
  | axpy (i : Nat) (a : K) (j : Nat)
  /-- `x_i[k] = e` -/
  | write (i k : Nat) (e : K)

/-- An operation on all entries of a vector, in place. Source: istl/vector.hh:198-214, simple/vector.hh:144-163. -/
def State.mapVec (st : State K) (f : K → K) (i : Nat) : Option (State K) :=
  match st.address i, st.value i with
  | some a, some x =>
    match mapLoop f a x.length 0 st.heap with
    | some heap => some { st with heap := heap }
    | none => none
  | _, _ => none

/-- An operation on all entries of a vector with the entries of another one, in
place. Source: istl/vector.hh:217-226, 279-282, simple/vector.hh:165-177. -/
def State.transformVec (st : State K) (f : K → K → K) (i j : Nat) : Option (State K) :=
  match st.address i, st.address j, st.value i with
  | some a, some b, some x =>
    match transformLoop f a b x.length 0 st.heap with
    | some heap => some { st with heap := heap }
    | none => none
  | _, _, _ => none

/-- The effect of an operation; `none` is undefined behaviour.
Constructors: istl/vector.hh:63-128, simple/vector.hh:72-102; the copy constructor
of ISTL vectors allocates and resizes a container for the space and then assigns
the entries, which gives it the size of the other one (istl/vector.hh:63-69);
move constructor: istl/vector.hh:71-74; `detach`, `attach`:
istl/vector.hh:146-149 and 163-166, simple/vector.hh:104-112; assignment:
istl/vector.hh:183-196, simple/vector.hh:129-142; operations:
istl/vector.hh:198-227, 239-242 and 279-283, simple/vector.hh:144-182 and 229-235. -/
def step (st : State K) : Event K → Option (State K)
  | .container c => some { st with heap := st.heap ++ [c] }
  | .construct n => some (st.allocate (resize n []))
  | .constructUnattached => some { st with vecs := st.vecs ++ [none] }
  | .constructExternal n a =>
    match st.heap[a]? with
    | some c => some ⟨st.heap.set a (resize n c), st.vecs ++ [some a]⟩
    | none => none
  | .constructValue n e => some (st.allocate ((resize n ([] : List K)).map fun _ => e))
  | .copy n i =>
    let st' := st.allocate (resize n (List.replicate n 0))
    match st.value i with
    | some c => some { st' with heap := st'.heap.set st.heap.length c }
    | none => none
  | .move i =>
    if i < st.vecs.length then
      some { st with vecs := st.vecs.set i none ++ [st.address i] }
    else
      none
  | .assign i j =>
    if i < st.vecs.length then
      if i = j then
        some st
      else
        match st.address i, st.value j with
        | some a, some c => some { st with heap := st.heap.set a c }
        | none, some c =>
          some ⟨st.heap ++ [c], st.vecs.set i (some st.heap.length)⟩
        | _, none => none
    else
      none
  | .attach i j =>
    if i < st.vecs.length ∧ j < st.vecs.length then
      some { st with vecs := st.vecs.set i (st.address j) }
    else
      none
  | .attachContainer i a =>
    if i < st.vecs.length ∧ a < st.heap.length then
      some { st with vecs := st.vecs.set i (some a) }
    else
      none
  | .detach i =>
    if i < st.vecs.length then some { st with vecs := st.vecs.set i none } else none
  | .fill i e => st.mapVec (fun _ => e) i
  | .scale i e => st.mapVec (fun x => e * x) i
  | .shift i e => st.mapVec (fun x => e + x) i
  | .add i j => st.transformVec (fun x y => x + y) i j
  | .sub i j => st.transformVec (fun x y => x - y) i j
  | .axpy i a j => st.transformVec (fun x y => x + a * y) i j
  | .write i k e =>
    match st.address i, st.value i with
    | some a, some x =>
      if k < x.length then some { st with heap := st.heap.set a (x.set k e) } else none
    | _, _ => none

/-- A sequence of operations. Source: the methods istl/vector.hh:62-284, simple/vector.hh:72-177. -/
def run (st : State K) : List (Event K) → Option (State K)
  | [] => some st
  | e :: es =>
    match step st e with
    | some st => run st es
    | none => none

/-! ## Dense matrices of the simple backend -/

/-- `Simple::MatrixContainer` (simple/matrix.hh:222-224), with its container
instead of the pointer: sharing is treated with the vectors above. -/
structure Dense (K : Type) where
  rows : Nat
  cols : Nat
  data : Option (List K)

/-- The constructor for a grid operator (simple/matrix.hh:50-62): sizes of test
and trial space. -/
def Dense.construct (n m : Nat) (e : K) : Dense K := ⟨n, m, some (List.replicate (n * m) e)⟩

/-- `MatrixContainer(unattached_container)` (simple/matrix.hh:64-68). -/
def Dense.unattached : Dense K := ⟨0, 0, none⟩

/-- `MatrixContainer(attached_container)` (simple/matrix.hh:70-75). -/
def Dense.empty : Dense K := ⟨0, 0, some []⟩

/-- The copy constructor (simple/matrix.hh:77-81). -/
def Dense.copy (b : Dense K) : Option (Dense K) :=
  match b.data with
  | some c => some ⟨b.rows, b.cols, some c⟩
  | none => none

/-- `operator=` for different objects (simple/matrix.hh:83-101). -/
def Dense.assign (a b : Dense K) : Option (Dense K) :=
  match b.data with
  | none => none
  | some c =>
    if a.rows = 0 ∧ a.cols = 0 then
      some ⟨b.rows, b.cols, some c⟩
    else
      some ⟨a.rows, a.cols, some c⟩

/-- `detach` (simple/matrix.hh:103-106). -/
def Dense.detach (a : Dense K) : Dense K := { a with data := none }

/-- `attach` (simple/matrix.hh:108-111). -/
def Dense.attach (a : Dense K) (c : List K) : Dense K := { a with data := some c }

/-- `operator()` (simple/matrix.hh:168-176). -/
def Dense.entry (a : Dense K) (i j : Nat) : Option K :=
  match a.data with
  | some c => c[i * a.cols + j]?
  | none => none

/-! ## Statistics of ISTL matrices -/

/-- `ISTL::BCRSMatrix` (istl/bcrsmatrix.hh:268-269): the container `C` and
`_stats`, one entry for each matrix of the nested container, empty if there are
none. -/
structure Sparse (C S : Type) where
  container : Option C
  stats : List S

variable {C S : Type}

/-- The constructor for a grid operator (istl/bcrsmatrix.hh:77-82): `buildPattern`
makes the pattern and returns its statistics. -/
def Sparse.construct (statistics : C → List S) (c : C) : Sparse C S := ⟨some c, statistics c⟩

/-- `BCRSMatrix(unattached_container)` (istl/bcrsmatrix.hh:108-110). -/
def Sparse.unattached : Sparse C S := ⟨none, []⟩

/-- The copy constructor (istl/bcrsmatrix.hh:117-119). -/
def Sparse.copy (b : Sparse C S) : Option (Sparse C S) :=
  match b.container with
  | some c => some ⟨some c, []⟩
  | none => none

/-- `operator=` for different objects (istl/bcrsmatrix.hh:121-135). -/
def Sparse.assign (_a b : Sparse C S) : Option (Sparse C S) :=
  match b.container with
  | some c => some ⟨some c, []⟩
  | none => none

/-- `detach` (istl/bcrsmatrix.hh:169-173). -/
def Sparse.detach (_a : Sparse C S) : Sparse C S := ⟨none, []⟩

/-- `attach` (istl/bcrsmatrix.hh:175-178). -/
def Sparse.attach (a : Sparse C S) (c : C) : Sparse C S := { a with container := some c }

/-- `operator= (e)` and `operator*=` (istl/bcrsmatrix.hh:200-210): the entries
change, `f` is what happens to the container. -/
def Sparse.modify (f : C → C) (a : Sparse C S) : Option (Sparse C S) :=
  match a.container with
  | some c => some { a with container := some (f c) }
  | none => none

/-- `patternStatistics` (istl/bcrsmatrix.hh:138-163).  `none` is the
`InvalidStateException`. -/
def Sparse.patternStatistics (a : Sparse C S) : Option (List S) :=
  if a.stats.isEmpty then none else some a.stats

end Verif.BackendStorage
