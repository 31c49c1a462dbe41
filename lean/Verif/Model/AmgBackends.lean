import Mathlib.LinearAlgebra.Matrix.DotProduct
import Mathlib.Data.Matrix.Mul
import Mathlib.Algebra.Order.Ring.Rat
import Verif.Model.ParallelSolvers
/-
Model of the solver backends with algebraic multigrid: the life cycle of the hierarchy (seqistlsolverbackend.hh, ovlpistlsolverbackend.hh,
novlpistlsolverbackend.hh), the preconditioner that combines smoothing in a discontinuous space with multigrid in a conforming subspace and
its backends (seq_amg_dg_backend.hh, ovlp_amg_dg_backend.hh), and the matrix of the embedding (cg_to_dg_prolongation.hh); all under
/repo/dune/pdelab/backend/istl.

Simplifications: matrices are full; timings, output and statistics are left out. `Dune::Amg::AMG`, the smoothers and the Krylov
methods belong to dune-istl and are parameters. What is used about `AMG`: it refers to the operator (and, in parallel, the communication
object) passed to its constructor as its finest level and does not copy them.
-/
namespace Verif.AmgBackends

open Matrix

/-! ### The hybrid preconditioner -/

section
variable {K ι κ : Type} [CommRing K] [Fintype ι] [Fintype κ]

/-- One smoothing step, seq_amg_dg_backend.hh:89-95 and 112-118: the state is `(x, d)`, `dgprec v d` is `v` after `dgprec.apply(v,d)`. -/
def smoothStep (A : Matrix ι ι K) (dgprec : (ι → K) → (ι → K) → ι → K) (s : (ι → K) × (ι → K)) : (ι → K) × (ι → K) :=
  let v := dgprec 0 s.2
  let d := s.2 - A *ᵥ v
  (s.1 + v, d)

/-- `for (int i=0; i<n; i++)` around a smoothing step. Source: seq_amg_dg_backend.hh:89, 112. -/
def smooth (A : Matrix ι ι K) (dgprec : (ι → K) → (ι → K) → ι → K) (n : Int) (s : (ι → K) × (ι → K)) : (ι → K) × (ι → K) :=
  (smoothStep A dgprec)^[n.toNat] s

/-- The correction in the subspace, seq_amg_dg_backend.hh:97-109: `p.mtv`, `cgprec.apply`, `p.mv`. -/
def coarseStep (A : Matrix ι ι K) (P : Matrix ι κ K) (cgprec : (κ → K) → (κ → K) → κ → K) (s : (ι → K) × (ι → K)) :
    (ι → K) × (ι → K) :=
  let cgd := P.transpose *ᵥ s.2
  let cgv := cgprec 0 cgd
  let v := P *ᵥ cgv
  let d := s.2 - A *ᵥ v
  (s.1 + v, d)

/-- `SeqDGAMGPrec::apply`, seq_amg_dg_backend.hh:82-119. -/
def hybridApply (A : Matrix ι ι K) (P : Matrix ι κ K) (dgprec : (ι → K) → (ι → K) → ι → K) (cgprec : (κ → K) → (κ → K) → κ → K)
    (n1 n2 : Int) (x b : ι → K) : ι → K :=
  (smooth A dgprec n2 (coarseStep A P cgprec (smooth A dgprec n1 (x, b)))).1
end

/-! ### The hybrid preconditioner in parallel -/

section
open Verif.ParallelHelper Verif.ParallelSolvers
variable {K : Type} [CommRing K]

/-- `p.mtv(d,cgd)` on one process. Source: calls in seq_amg_dg_backend.hh:99, ovlp_amg_dg_backend.hh:382. -/
def mtv (n : Nat) (P : Nat → Nat → K) (d : Nat → K) : Nat → K := fun j => ∑ i ∈ Finset.range n, P i j * d i

/-- One smoothing step of `OvlpDGAMGPrec::apply`, ovlp_amg_dg_backend.hh:366-377 and 401-411. -/
def parSmoothStep (L : Layout) (msgs : List Message) (cc : Nat → List Nat) (A : Nat → Nat → Nat → K)
    (dgprec : Nat → (Nat → K) → (Nat → K) → Nat → K) (s : Vecs K × Vecs K) : Option (Vecs K × Vecs K) := do
  let v ← addUp L msgs fun p => dgprec p 0 (s.2 p)
  let d : Vecs K := fun p i => s.2 p i - mv (L.size p) (A p) (v p) i
  let d : Vecs K := fun p => zeroConstrained (cc p) (d p)
  some (fun p i => s.1 p i + v p i, d)

/-- `n` smoothing steps. Source: ovlp_amg_dg_backend.hh:366, 401. -/
def parSmooth (L : Layout) (msgs : List Message) (cc : Nat → List Nat) (A : Nat → Nat → Nat → K)
    (dgprec : Nat → (Nat → K) → (Nat → K) → Nat → K) : Nat → Vecs K × Vecs K → Option (Vecs K × Vecs K)
  | 0, s => some s
  | n + 1, s => (parSmoothStep L msgs cc A dgprec s).bind (parSmooth L msgs cc A dgprec n)

/-- The correction in the subspace, ovlp_amg_dg_backend.hh:379-400. `copies p` are the entries `comm.project` sets to zero; `cgprec v d` is the
collective application of the multigrid cycle. -/
def parCoarseStep (L Lc : Layout) (cmsgs : List Message) (cc ccg copies : Nat → List Nat) (ranks : Nat → List Nat) (A P : Nat → Nat → Nat → K)
    (cgprec : Vecs K → Vecs K → Vecs K) (s : Vecs K × Vecs K) : Option (Vecs K × Vecs K) := do
  let d : Vecs K := fun p => maskForeign ranks p (s.2 p)
  let cgd ← addUp Lc cmsgs fun p => mtv (L.size p) (P p) (d p)
  let cgd : Vecs K := fun p => zeroConstrained (ccg p) (cgd p)
  let cgd : Vecs K := fun p => zeroConstrained (copies p) (cgd p)
  let cgv := cgprec 0 cgd
  let v : Vecs K := fun p => mv (Lc.size p) (P p) (cgv p)
  let d : Vecs K := fun p i => d p i - mv (L.size p) (A p) (v p) i
  let d : Vecs K := fun p => zeroConstrained (cc p) (d p)
  some (fun p i => s.1 p i + v p i, d)

/-- `OvlpDGAMGPrec::apply`, ovlp_amg_dg_backend.hh:357-415: all processes. -/
def parHybridApply (L Lc : Layout) (msgs cmsgs : List Message) (cc ccg copies : Nat → List Nat) (ranks : Nat → List Nat)
    (A P : Nat → Nat → Nat → K) (dgprec : Nat → (Nat → K) → (Nat → K) → Nat → K) (cgprec : Vecs K → Vecs K → Vecs K) (n1 n2 : Int)
    (x b : Vecs K) : Option (Vecs K) := do
  let d : Vecs K := fun p => zeroConstrained (cc p) (b p)
  let s ← parSmooth L msgs cc A dgprec n1.toNat (x, d)
  let s ← parCoarseStep L Lc cmsgs cc ccg copies ranks A P cgprec s
  let s ← parSmooth L msgs cc A dgprec n2.toNat s
  some s.1
end

/-! ### The embedding of the conforming space -/

section
variable {K Pt : Type}

/-- A leaf of the two local function spaces on a cell: the shape functions of the conforming (`lfsu`) and the interpolation of the
discontinuous finite element (`lfsv`). Source: the arguments of `leaf`, cg_to_dg_prolongation.hh:78-100. -/
structure LeafPair (K Pt : Type) where
  nu : Nat
  nv : Nat
  shape : Fin nu → Pt → K
  interpolate : (Pt → K) → Fin nv → K

/-- Local indices of the trial and of the test space: leaf and number in the leaf. Source: the arguments of `_mat`, cg_to_dg_prolongation.hh:97. -/
abbrev UIndex (leaves : List (LeafPair K Pt)) := Σ l : Fin leaves.length, Fin (leaves.get l).nu
/-- The local indices of the test space, the arguments of `_mat`, cg_to_dg_prolongation.hh:97. -/
abbrev VIndex (leaves : List (LeafPair K Pt)) := Σ l : Fin leaves.length, Fin (leaves.get l).nv

/-- `ComputeCG2DGVisitor::leaf`, cg_to_dg_prolongation.hh:78-100: the entries written, in order. -/
def leafEntries (leaves : List (LeafPair K Pt)) (l : Fin leaves.length) : List ((VIndex leaves × UIndex leaves) × K) :=
  (List.finRange (leaves.get l).nu).flatMap fun i =>
    let f := (leaves.get l).shape i
    let v := (leaves.get l).interpolate f
    (List.finRange (leaves.get l).nv).map fun j => ((⟨l, j⟩, ⟨l, i⟩), v j)

/-- `CG2DGProlongation::jacobian_volume`, cg_to_dg_prolongation.hh:111-119, 133-139: the pairs of leaves are visited in order, the entries are
assigned to the local matrix, which is zero before (the weight is not used). -/
def localProlongation [Zero K] (leaves : List (LeafPair K Pt)) : VIndex leaves → UIndex leaves → K :=
  ((List.finRange leaves.length).flatMap (leafEntries leaves)).foldl
    (fun m e j i => if (j, i) = e.1 then e.2 else m j i) fun _ _ => 0

/-- A cell: its leaves and the global indices of its local indices.
Source: what the grid operator hands to `jacobian_volume`, cg_to_dg_prolongation.hh:134-136. -/
structure Cell (K Pt ι κ : Type) where
  leaves : List (LeafPair K Pt)
  uIndex : UIndex leaves → κ
  vIndex : VIndex leaves → ι

/-- `pmatrix = 0.0; pgo.jacobian(cgx,pmatrix)`, seq_amg_dg_backend.hh:232-235, ovlp_amg_dg_backend.hh:613-616: the local matrices are added to the
entries of the cell; there are no constraints. -/
def prolongation {ι κ : Type} [DecidableEq ι] [DecidableEq κ] [CommRing K] (cells : List (Cell K Pt ι κ)) : Matrix ι κ K :=
  cells.foldl (fun m c => m + Matrix.of fun i k => ∑ j, ∑ l, if c.vIndex j = i ∧ c.uIndex l = k then localProlongation c.leaves j l else 0) 0
end

/-! ### The backends for discontinuous spaces -/

section
variable {K ι κ : Type} [CommRing K] [Fintype ι] [Fintype κ]

/-- Conversion of a `double` to an `int`: towards zero. Source: used for the member `int smoother_relaxation`, seq_amg_dg_backend.hh:194. -/
def toInt (w : Rat) : Int := w.num.tdiv w.den

/-- The members of `ISTLBackend_SEQ_AMG_4_DG` that change, seq_amg_dg_backend.hh:185-201: `smoother_relaxation` is an `int`. `acg` is the matrix
in the subspace, `amg` the matrix (`*cgop`, which refers to the member `acg`) that the hierarchy was built for. -/
structure SeqDG (K κ : Type) where
  reuse : Bool
  firstapply : Bool
  relaxation : Int
  n1 : Int
  n2 : Int
  acg : Option (Matrix κ κ K)
  amg : Option (Matrix κ κ K)

/-- Constructor, seq_amg_dg_backend.hh:204-236. -/
def SeqDG.create (reuse : Bool) : SeqDG K κ := ⟨reuse, true, 1, 2, 2, none, none⟩
/-- `setReuse`, seq_amg_dg_backend.hh:303-306. -/
def SeqDG.setReuse (s : SeqDG K κ) (r : Bool) : SeqDG K κ := { s with reuse := r }
/-- `setDGSmootherRelaxation`, seq_amg_dg_backend.hh:315-318: the argument is a `double`. -/
def SeqDG.setRelaxation (s : SeqDG K κ) (w : Rat) : SeqDG K κ := { s with relaxation := toInt w }
/-- `setNoDGPreSmoothSteps`, seq_amg_dg_backend.hh:321-324. -/
def SeqDG.setPre (s : SeqDG K κ) (n : Int) : SeqDG K κ := { s with n1 := n }
/-- `setNoDGPostSmoothSteps`, seq_amg_dg_backend.hh:327-330. -/
def SeqDG.setPost (s : SeqDG K κ) (n : Int) : SeqDG K κ := { s with n2 := n }

/-- `apply`, seq_amg_dg_backend.hh:339-402: the new state and the preconditioner given to the solver. `smoother A w v d` is `v` after the
application of `DGPrec(A,1,w)`, `amg M v d` after that of the hierarchy for `M`. -/
def SeqDG.apply (s : SeqDG K κ) (P : Matrix ι κ K) (smoother : Matrix ι ι K → Int → (ι → K) → (ι → K) → ι → K)
    (amg : Matrix κ κ K → (κ → K) → (κ → K) → κ → K) (A : Matrix ι ι K) : SeqDG K κ × Option ((ι → K) → (ι → K) → ι → K) :=
  let acg := if s.reuse = false ∨ s.firstapply = true then some (P.transpose * A * P) else s.acg
  let hier := if s.reuse = false ∨ s.firstapply = true then acg else s.amg
  let firstapply := if s.reuse = false ∨ s.firstapply = true then false else s.firstapply
  ({ s with acg := acg, amg := hier, firstapply := firstapply },
    hier.map fun M => hybridApply A P (smoother A s.relaxation) (amg M) s.n1 s.n2)

variable [DecidableEq ι] [DecidableEq κ]

/-- `handle_dirichlet_constraints`: the rows of constrained degrees of freedom become those of the identity (gridoperator/default/jacobianengine.hh
with an empty local operator). Source: gridoperator/default/jacobianengine.hh:208 and gridoperator/common/assemblerutilities.hh:679. -/
def trivialRows {n : Type} [DecidableEq n] (cc : List n) (A : Matrix n n K) : Matrix n n K :=
  Matrix.of fun i j => if i ∈ cc then (if i = j then 1 else 0) else A i j

/-- `ISTLBackend_OVLP_AMG_4_DG::apply` on one process, ovlp_amg_dg_backend.hh:689-795, without reuse: the matrix in the subspace, and what is left
in the matrix `A` of the caller. -/
def ovlpDGSetup (dgcc : List ι) (cgcc : List κ) (P : Matrix ι κ K) (A : Matrix ι ι K) : Matrix κ κ K × Matrix ι ι K :=
  let acg := P.transpose * A * P
  let acg := trivialRows cgcc acg
  let A := trivialRows dgcc A
  (acg, A)
end

/-! ### Life cycle of the hierarchy -/

/-- The objects in memory: matrices by address, `none` for those that are destroyed.
Source: `oop` and `amg`, seqistlsolverbackend.hh:802-804, 841, hold a reference to a matrix. -/
abbrev Heap (M : Type) := Nat → Option M

/-- What a backend gives to the Krylov method: the operator, and the matrix at the time the hierarchy was built.
Source: seqistlsolverbackend.hh:802-804 and the call of the solver below. -/
structure Solve (M : Type) where
  operator : M
  setup : M
deriving DecidableEq

/-- The members of `ISTLBackend_SEQ_AMG` that change, seqistlsolverbackend.hh:833-843: `oop` refers to a matrix by address, `amg` was built
for the values `amg` had then. -/
structure SeqAMG (M : Type) where
  reuse : Bool
  firstapply : Bool
  oop : Option Nat
  amg : Option M

/-- Constructor, seqistlsolverbackend.hh:735-738. -/
def SeqAMG.create {M : Type} (reuse : Bool) : SeqAMG M := ⟨reuse, true, none, none⟩

/-- `apply`, seqistlsolverbackend.hh:790-821: the new state, and what is solved; `none` if a destroyed matrix would be used. -/
def SeqAMG.apply {M : Type} (heap : Heap M) (s : SeqAMG M) (a : Nat) : SeqAMG M × Option (Solve M) :=
  let s := if s.reuse = false ∨ s.firstapply = true then { s with oop := some a, amg := heap a, firstapply := false } else s
  (s, do
    let o ← s.oop
    let op ← heap o
    let h ← s.amg
    some ⟨op, h⟩)

/-- The members of `ISTLBackend_AMG`, ovlpistlsolverbackend.hh:1234-1244, and `ISTLBackend_AMG_NOVLP`, novlpistlsolverbackend.hh:1042-1054. The
hierarchy refers to the local variables `oop` and `oocc` of the call of `apply` that built it: `amg` is the number of this call and
the matrix then; `calls` counts the calls. -/
structure ParAMG (M : Type) where
  reuse : Bool
  firstapply : Bool
  amg : Option (Nat × M)
  calls : Nat

/-- Constructors, ovlpistlsolverbackend.hh:1109-1114, novlpistlsolverbackend.hh:905-929. -/
def ParAMG.create {M : Type} (reuse : Bool) : ParAMG M := ⟨reuse, true, none, 0⟩

/-- `apply`, ovlpistlsolverbackend.hh:1180-1223, novlpistlsolverbackend.hh:978-1031 (after the matrix has been made consistent and its index set
built): `none` if the hierarchy refers to local variables of an earlier call. -/
def ParAMG.apply {M : Type} (s : ParAMG M) (A : M) : ParAMG M × Option (Solve M) :=
  let now := s.calls
  let s := if s.reuse = false ∨ s.firstapply = true then { s with amg := some (now, A), firstapply := false } else s
  ({ s with calls := now + 1 }, do
    let h ← s.amg
    if h.1 = now then some ⟨A, h.2⟩ else none)

/-- `OnTheFlyOperator`, seqistlsolverbackend.hh:44-100: `u` is the linearization point, `none` if it was not set. `jacobianApply` adds the product with
the Jacobian to its last argument. -/
def onTheFlyApply {U V W : Type} [Zero W] (isLinear : Bool) (jacApplyLinear : V → W → W) (jacApply : U → V → W → W) (u : Option U) (x : V) :
    Option W :=
  if isLinear then some (jacApplyLinear x 0) else u.map fun u => jacApply u x 0

/-- `OnTheFlyOperator::applyscaleadd`, seqistlsolverbackend.hh:78-90. -/
def onTheFlyApplyscaleadd {K U V W : Type} [Zero W] [Add W] [SMul K W] (isLinear : Bool) (jacApplyLinear : V → W → W)
    (jacApply : U → V → W → W) (u : Option U) (alpha : K) (x : V) (y : W) : Option W :=
  (onTheFlyApply isLinear jacApplyLinear jacApply u x).map fun temp => y + alpha • temp

end Verif.AmgBackends
