import Verif.Model.ParallelSolvers
import Mathlib.Algebra.BigOperators.Group.Finset.Basic
/-
Model of the GenEO coarse space, its bases, the two-level Schwarz preconditioner and the local operator restricted to the overlap.

Sources: dune/pdelab/backend/istl/geneo/{subdomainbasis,subdomainprojectedcoarsespace,multicommdatahandle,two_level_schwarz,geneobasis,
liptonbabuskabasis,localoperator_ovlp_region}.hh (under /repo).

Simplifications: as in the model of the parallel solver backends: vectors are functions of flat positions, the values of a communication are gathered
before any message is scattered. The broadcasts, `allgather` and `Allgatherv` of all processes are one function of the data of all processes. The eigenvalue
solver and the direct solvers are parameters. Output and timers are left out.
-/
namespace Verif.GenEO

open Verif.ParallelHelper Verif.ParallelSolvers

/-! ### Coarse space -/

/-- `local_basis` of all processes, subdomainbasis.hh:31-43. -/
abbrev Basis (K : Type) := Nat → List (Nat → K)

/-- `basis_array_offset`, subdomainprojectedcoarsespace.hh:208-214. -/
def offset (size : Nat → Nat) (rank : Nat) : Nat := (List.range rank).foldl (fun o i => o + size i) 0

/-- `global_basis_size_`, subdomainprojectedcoarsespace.hh:68-72. -/
def globalSize (size : Nat → Nat) (procs : Nat) : Nat := (List.range procs).foldl (fun n p => n + size p) 0

/-- `max_local_basis_size`, subdomainprojectedcoarsespace.hh:74. -/
def maxSize (size : Nat → Nat) (procs : Nat) : Nat := (List.range procs).foldl (fun n p => max n (size p)) 0

/-- `neighbor_basis` of all processes: rank, neighbour number, position. Used for `deliverMulti`, multicommdatahandle.hh:35-74. -/
abbrev Targets (K : Type) := Nat → Nat → Nat → K

/-- `MultiCommGatherScatter::scatter`, multicommdatahandle.hh:35-74: the sender must be in the list of neighbours of the receiver, the values go
to the vector with the number of the sender in that list. -/
def deliverMulti {K : Type} (nb : Nat → List Nat) (x : Vecs K) (s : Targets K) (m : Message) : Option (Targets K) :=
  match (nb m.dst).idxOf? m.src with
  | none => none
  | some id =>
    let vals := m.sent.dofs.map (x m.src)
    if m.received.dofs = [] then some s
    else if m.received.dofs.length = vals.length then
      some fun p n => if p = m.dst ∧ n = id then scatterCopy (s p n) m.received.dofs vals else s p n
    else none

section
variable {K : Type} [CommRing K]

/-- The scalar product of two vectors of one process. Used for `pushProducts`, subdomainprojectedcoarsespace.hh:110-116, 124-132. -/
def dotp (n : Nat) (x y : Nat → K) : K := ∑ i ∈ Finset.range n, x i * y i

/-- Basis vector `b` of a process, or zeros if it has fewer (`dummy`), subdomainprojectedcoarsespace.hh:99-106. -/
def basisVector (l : List (Nat → K)) (b : Nat) : Nat → K := (l[b]?).getD fun _ => 0

/-- The local variables of `setup_coarse_system` on all processes: `neighbor_basis`, and `local_rows` by rank and own basis function, split into the section of
the own basis functions and those of the neighbours (by number). Used for `round`, subdomainprojectedcoarsespace.hh:95-135. -/
structure Sections (K : Type) where
  targets : Targets K
  own : Nat → Nat → List K
  other : Nat → Nat → Nat → List K

/-- The products of the own basis functions with the matrix and the vector `w`, pushed back to the rows, subdomainprojectedcoarsespace.hh:110-116,
124-132. -/
def pushProducts (n : Nat) (A : Nat → Nat → K) (basis : List (Nat → K)) (w : Nat → K) (rows : Nat → List K) : Nat → List K := fun a =>
  match basis[a]? with
  | none => rows a
  | some v => rows a ++ [dotp n v (mv n A w)]

/-- One round `b` of the loop assembling the local sections, subdomainprojectedcoarsespace.hh:95-135. -/
def round (L : Layout) (nb : Nat → List Nat) (msgs : Nat → List Message) (A : Nat → Nat → Nat → K) (B : Basis K) (s : Sections K) (b : Nat) :
    Option (Sections K) := do
  let t ← (msgs b).foldlM (deliverMulti nb fun p => basisVector (B p) b) s.targets
  some { targets := t
         own := fun p => if b < (B p).length then pushProducts (L.size p) (A p) (B p) (basisVector (B p) b) (s.own p) else s.own p
         other := fun p a n => match (nb p)[n]? with
           | none => s.other p a n
           | some q =>
             if b < (B q).length then pushProducts (L.size p) (A p) (B p) (t p n) (fun a => s.other p a n) a else s.other p a n }

/-- Pattern and entries of row `a` of process `p`, subdomainprojectedcoarsespace.hh:143-186. Entries that have not been computed are an access out of
bounds (`none`). -/
def rowOf (nb : Nat → List Nat) (B : Basis K) (s : Sections K) (p a : Nat) : Option (List (Nat × K)) := do
  let off := offset fun q => (B q).length
  let own ← (List.range (B p).length).mapM fun b => ((s.own p a)[b]?).map fun v => (off p + b, v)
  let other ← (nb p).zipIdx.mapM fun q => (List.range (B q.1).length).mapM fun b => ((s.other p a q.2)[b]?).map fun v => (off q.1 + b, v)
  some (own ++ other.flatten)

/-- The row of the coarse matrix with the pattern and the entries, subdomainprojectedcoarsespace.hh:188-196; `none` outside the pattern. -/
def buildRow (l : List (Nat × K)) : Nat → Option K := l.foldl (fun r q c => if c = q.1 then some q.2 else r c) fun _ => none

/-- `setup_coarse_system`, subdomainprojectedcoarsespace.hh:55-204: the rows of the coarse matrix, the same on all processes. `msgs b` are the messages
of round `b`. -/
def coarseSystem (L : Layout) (nb : Nat → List Nat) (msgs : Nat → List Message) (A : Nat → Nat → Nat → K) (B : Basis K) :
    Option (List (Nat → Option K)) := do
  let s ← (List.range (maxSize (fun p => (B p).length) L.procs)).foldlM (round L nb msgs A B)
    { targets := fun _ _ _ => 0, own := fun _ _ => [], other := fun _ _ _ => [] }
  let rows ← (List.range L.procs).mapM fun p => (List.range (B p).length).mapM fun a => rowOf nb B s p a
  some (rows.flatten.map buildRow)

/-- `displs`, subdomainprojectedcoarsespace.hh:223-231. -/
def displacements (size : Nat → Nat) (procs : Nat) : Nat → Nat :=
  (List.range procs).foldl (fun d rank => (List.range' (rank + 1) (procs - (rank + 1))).foldl (fun d i j => if j = i then d j + size rank else d j) d)
    fun _ => 0

/-- `MPI_Allgatherv`: the buffer of every process goes to its displacement. Used for `restrict`, subdomainprojectedcoarsespace.hh:218-246. -/
def gatherAll (procs : Nat) (disp : Nat → Nat) (local_ : Nat → List K) (buf : List K) : List K :=
  (List.range procs).foldl (fun buf p => (local_ p).zipIdx.foldl (fun buf v => buf.set (disp p + v.2) v.1) buf) buf

/-- `restrict`, subdomainprojectedcoarsespace.hh:218-246: the coarse vector, the same on all processes. -/
def restrict (L : Layout) (B : Basis K) (fine : Vecs K) : List K :=
  let size := fun p => (B p).length
  gatherAll L.procs (displacements size L.procs) (fun p => (B p).map fun v => dotp (L.size p) v (fine p)) (List.replicate (globalSize size L.procs) 0)

/-- `prolongate`, subdomainprojectedcoarsespace.hh:248-259. -/
def prolongate (B : Basis K) (coarse : List K) : Vecs K := fun p =>
  (B p).zipIdx.foldl (fun y v i => y i + v.1 i * (coarse[offset (fun q => (B q).length) p + v.2]?).getD 0) fun _ => 0

/-- `TwoLevelOverlappingAdditiveSchwarz::apply`, two_level_schwarz.hh:64-99: `solve p b` is the solution of the direct solver of the subdomain, `coarseSolve` that
of the coarse system. -/
def twoLevelApply (L : Layout) (active : Bool) (msgs : List Message) (B : Basis K) (solve : Nat → (Nat → K) → Nat → K) (coarseSolve : List K → List K)
    (d : Vecs K) : Option (Vecs K) :=
  let v : Vecs K := fun p => solve p (d p)
  if active then
    let prolongated := prolongate B (coarseSolve (restrict L B d))
    communicate scatterAdd msgs fun p i => v p i + prolongated p i
  else communicate scatterAdd msgs v
end

/-! ### Bases -/

section
variable {K : Type} [Field K] [LinearOrder K]

/-- The matrix `X A X` of the generalized eigenproblem, geneobasis.hh:53-63. -/
def scaleMatrix (unity : Nat → K) (A : Nat → Nat → K) : Nat → Nat → K := fun i j => A i j * (unity i * unity j)

/-- The loop counting eigenvalues up to a threshold, geneobasis.hh:77-86: the first of the first `nev` eigenvalues above the threshold. -/
def countBelow (threshold : K) (nev : Nat) (eigenvalues : List K) : Option Nat :=
  (List.range nev).find? fun i => decide ((eigenvalues[i]?).getD 0 > threshold)

/-- `cnt`, geneobasis.hh:75-89 and liptonbabuskabasis.hh:47-61. -/
def chooseCount (threshold : K) (nev : Nat) (eigenvalues : List K) : Option Nat :=
  if threshold ≥ 0 then countBelow threshold nev eigenvalues else some nev

/-- `*v *= 1.0 / v->two_norm2()`, geneobasis.hh:104-107. -/
def scaleBasis (n : Nat) (v : Nat → K) : Nat → K := fun i => v i * (1 / dotp n v v)

/-- The constructor of `GenEOBasis`, geneobasis.hh:42-115, and of `LiptonBabuskaBasis`, liptonbabuskabasis.hh:26-85, after the eigenvalue problem: `n` is the size of
the subdomain, `nevArpack = none` is -1 (the default), `eigen m` the `m` eigenvalues and eigenvectors, `tiny` is 1E-10. -/
def eigenBasis (n : Nat) (tiny threshold : K) (unity : Nat → K) (nev : Nat) (nevArpack : Option Nat) (eigen : Nat → List K × List (Nat → K))
    (addUnity : Bool) : Option (List (Nat → K)) :=
  let m := nevArpack.getD (max nev 2)
  if m < nev then none
  else
    (chooseCount threshold nev (eigen m).1).map fun cnt =>
      let basis := (List.range cnt).map fun b i => unity i * basisVector (eigen m).2 b i
      let basis := basis.map (scaleBasis n)
      if addUnity ∧ ((eigen m).1[0]?).getD 0 > tiny then (unity :: basis).dropLast else basis
end

/-! ### The local operator on the overlap -/

/-- The constructor of `LocalOperatorOvlpRegion`, localoperator_ovlp_region.hh:23-28: one is added from every process. -/
def subdomainSum (msgs : List Message) : Option (Vecs Nat) := communicate scatterAdd msgs fun _ _ => 1

/-- `entity_is_interior`, localoperator_ovlp_region.hh:188-197: `dofs` are the positions of the DOFs of the element. -/
def entityIsInterior (sum : Nat → Nat) (dofs : List Nat) : Bool := dofs.any fun i => sum i < 2

/-- All methods of `LocalOperatorOvlpRegion` with a local function space (of the inside element), localoperator_ovlp_region.hh:66-177: the method `f` of the base
operator is applied to the local residual, matrix or pattern `r` if the element is not interior. -/
def ovlpMethod {R : Type} (sum : Nat → Nat) (dofs : List Nat) (f : R → R) (r : R) : R := if entityIsInterior sum dofs then r else f r

end Verif.GenEO
