import Verif.Model.LocalOperator
import Verif.Model.GridAssembler
import Mathlib.Algebra.Field.Defs
import Mathlib.Algebra.BigOperators.Group.List.Basic
/-
Model of the wrappers around local operators from which matrix-free block preconditioners are built:
dune/pdelab/localoperator/blockdiagonalwrapper.hh, blockoffdiagonalwrapper.hh, pointdiagonalwrapper.hh,
jacobianapplyhelper.hh and dune/pdelab/backend/istl/matrixfree/*.hh; together with what the Jacobian engines
(dune/pdelab/gridoperator/default/jacobianengine.hh, jacobianapplyengine.hh) do at the calls of the grid traversal
(`Verif.Model.GridAssembler`).

A local operator is given by the sequences of its `accumulate` calls. Trial and test spaces are the same. The weight of the
accumulation views is 1.
-/
namespace Verif.BlockOp

open GridAssembler LocalOp

/-- A local degree of freedom as named in an `accumulate` call: the leaf space `lfs` and the index `i` in it.
Source: the arguments of `accumulate`, gridfunctionspace/localvector.hh:77-83. -/
abbrev LDof := Nat × Nat

/-- The two result vectors of a skeleton term. Source: localoperator/interface.hh:342-346. -/
inductive Side where
  | s | n
deriving DecidableEq, Repr

/-- The four matrices of a skeleton term. Source: localoperator/interface.hh:945-950. -/
inductive Block where
  | ss | sn | ns | nn
deriving DecidableEq, Repr

/-- The intersection geometry: which cell it is seen from, which face it belongs to, its index and the cell outside.
Source: common/geometrywrapper.hh:56. -/
structure IG where
  cell : Nat
  face : Nat
  index : Nat
  outside : Nat
deriving DecidableEq, Repr

/-- A local operator: flags, Jacobians and matrix-free applications. `lfsS`, `lfsN` are the cells that the spaces handed over
are bound to; coefficients are read by `x(lfs,i)`. The application methods have an overload with and one without
linearisation point (`none`); they may throw (`none`). Source: localoperator/interface.hh:513-860, 880-980. -/
structure Lop (K : Type) where
  isLinear : Bool
  twoSided : Bool
  doAlphaVolume : Bool
  doAlphaSkeleton : Bool
  doAlphaBoundary : Bool
  doAlphaVolumePostSkeleton : Bool
  jacobianVolume : (lfs : Nat) → (x : LDof → K) → Calls (LDof × LDof) K
  jacobianSkeleton : IG → (lfsS : Nat) → (xS : LDof → K) → (lfsN : Nat) → (xN : LDof → K) →
    Calls (Block × LDof × LDof) K
  jacobianBoundary : IG → (lfs : Nat) → (x : LDof → K) → Calls (LDof × LDof) K
  jacobianVolumePostSkeleton : (lfs : Nat) → (x : LDof → K) → Calls (LDof × LDof) K
  applyVolume : (lfs : Nat) → (x : Option (LDof → K)) → (z : LDof → K) → Option (Calls LDof K)
  applySkeleton : IG → (lfsS : Nat) → (xS : Option (LDof → K)) → (zS : LDof → K) →
    (lfsN : Nat) → (xN : Option (LDof → K)) → (zN : LDof → K) → Option (Calls (Side × LDof) K)
  applyBoundary : IG → (lfs : Nat) → (x : Option (LDof → K)) → (z : LDof → K) → Option (Calls LDof K)

variable {K : Type}

/-! ### jacobianapplyhelper.hh -/

/-- jacobianapplyhelper.hh:22-56  `jacobianApplyVolume`: the call is forwarded if the overload fits to the operator. -/
def callApplyVolume (lop : Lop K) (lfs : Nat) (x : Option (LDof → K)) (z : LDof → K) : Option (Calls LDof K) :=
  if lop.isLinear = x.isNone then lop.applyVolume lfs x z else none

/-- jacobianapplyhelper.hh:62-104  `jacobianApplySkeleton`. -/
def callApplySkeleton (lop : Lop K) (ig : IG) (lfsS : Nat) (xS : Option (LDof → K)) (zS : LDof → K)
    (lfsN : Nat) (xN : Option (LDof → K)) (zN : LDof → K) : Option (Calls (Side × LDof) K) :=
  if lop.isLinear = xS.isNone then lop.applySkeleton ig lfsS xS zS lfsN xN zN else none

/-- jacobianapplyhelper.hh:110-144  `jacobianApplyBoundary`. -/
def callApplyBoundary (lop : Lop K) (ig : IG) (lfs : Nat) (x : Option (LDof → K)) (z : LDof → K) : Option (Calls LDof K) :=
  if lop.isLinear = x.isNone then lop.applyBoundary ig lfs x z else none

/-! ### The wrappers -/

/-- blockdiagonalwrapper.hh:17-60, 146-147  the views handed to the wrapped operator: only calls to `mat_ss` are forwarded. -/
def onlyBlock (b : Block) (calls : Calls (Block × LDof × LDof) K) : Calls (Block × LDof × LDof) K :=
  calls.filter fun c => c.1.1 = b

/-- blockdiagonalwrapper.hh:178-179 and 192-193  the views handed to the wrapped operator: only calls to `y_s` are forwarded. -/
def onlySide (s : Side) (calls : Calls (Side × LDof) K) : Calls (Side × LDof) K :=
  calls.filter fun c => c.1.1 = s

/-- blockdiagonalwrapper.hh:79-221  `BlockDiagonalLocalOperatorWrapper`. -/
def blockDiagonal [Zero K] (lop : Lop K) : Lop K where
  isLinear := lop.isLinear
  twoSided := true
  doAlphaVolume := lop.doAlphaVolume
  doAlphaSkeleton := lop.doAlphaSkeleton
  doAlphaBoundary := lop.doAlphaBoundary
  doAlphaVolumePostSkeleton := false
  jacobianVolume := lop.jacobianVolume
  jacobianSkeleton ig lfsS xS lfsN xN := onlyBlock .ss (lop.jacobianSkeleton ig lfsS xS lfsN xN)
  jacobianBoundary := lop.jacobianBoundary
  jacobianVolumePostSkeleton _ _ := []
  applyVolume lfs x z := callApplyVolume lop lfs x z
  applySkeleton ig lfsS xS zS lfsN xN _ :=
    (callApplySkeleton lop ig lfsS xS zS lfsN xN fun _ => 0).map (onlySide .s)
  applyBoundary ig lfs x z := callApplyBoundary lop ig lfs x z

/-- blockoffdiagonalwrapper.hh:107-238  `BlockOffDiagonalLocalOperatorWrapper`. -/
def blockOffDiagonal [Zero K] (lop : Lop K) : Lop K where
  isLinear := lop.isLinear
  twoSided := true
  doAlphaVolume := false
  doAlphaSkeleton := lop.doAlphaSkeleton
  doAlphaBoundary := false
  doAlphaVolumePostSkeleton := false
  jacobianVolume _ _ := []
  jacobianSkeleton ig lfsS xS lfsN xN := onlyBlock .ns (lop.jacobianSkeleton ig lfsS xS lfsN xN)
  jacobianBoundary _ _ _ := []
  jacobianVolumePostSkeleton _ _ := []
  applyVolume _ _ _ := some []
  applySkeleton ig lfsS xS _ lfsN xN zN :=
    (callApplySkeleton lop ig lfsS xS (fun _ => 0) lfsN xN zN).map (onlySide .s)
  applyBoundary _ _ _ _ := some []

/-- The residual methods of a local operator. Source: localoperator/interface.hh:273-385. -/
structure AlphaLop (K : Type) where
  doAlphaVolume : Bool
  doAlphaSkeleton : Bool
  doAlphaBoundary : Bool
  twoSided : Bool
  alphaVolume : (lfs : Nat) → (x : LDof → K) → Calls LDof K
  alphaSkeleton : IG → (lfsS : Nat) → (xS : LDof → K) → (lfsN : Nat) → (xN : LDof → K) → Calls (Side × LDof) K
  alphaBoundary : IG → (lfs : Nat) → (x : LDof → K) → Calls LDof K

/-- pointdiagonalwrapper.hh:13-32  `PointDiagonalAccumulationViewWrapper` (with `diagonal` set): the indices are compared, not
the spaces, and the value goes to the space of the rows. -/
def pointView (calls : Calls (LDof × LDof) K) : Calls LDof K :=
  (calls.filter fun c => c.1.1.2 = c.1.2.2).map fun c => (c.1.1, c.2)

/-- pointdiagonalwrapper.hh:51-131  `PointDiagonalLocalOperatorWrapper`. -/
def pointDiagonal (lop : Lop K) : AlphaLop K where
  doAlphaVolume := lop.doAlphaVolume
  doAlphaSkeleton := lop.doAlphaSkeleton
  doAlphaBoundary := lop.doAlphaBoundary
  twoSided := true
  alphaVolume lfs x := pointView (lop.jacobianVolume lfs x)
  alphaSkeleton ig lfsS xS lfsN xN :=
    (pointView ((onlyBlock .ss (lop.jacobianSkeleton ig lfsS xS lfsN xN)).map fun c => (c.1.2, c.2))).map fun c =>
      ((Side.s, c.1), c.2)
  alphaBoundary ig lfs x := pointView (lop.jacobianBoundary ig lfs x)

/-! ### Global assembly -/

/-- A degree of freedom of the space: the cell and the local degree of freedom (the spaces have all their degrees of freedom
inside of the cells). Source: what `DOFIndex`, common/dofindex.hh:30-330, identifies in such a space. -/
abbrev GDof := Nat × LDof

/-- default/jacobianengine.hh:76-87  the answers of the engine to the queries of the assembler. -/
def engineOf (lop : Lop K) : Engine where
  uvSkeleton := lop.doAlphaSkeleton
  vSkeleton := false
  uvBoundary := lop.doAlphaBoundary
  vBoundary := false
  uvPost := lop.doAlphaVolumePostSkeleton
  vPost := false
  twoSided := lop.twoSided
  interiorOnly := false
  skipEntity _ := false
  skipIntersection _ _ _ := false

/-- default/jacobianengine.hh:158-172  which matrix is scattered where. -/
def blockIndex (c o : Nat) : Block × LDof × LDof → GDof × GDof
  | (.ss, a, b) => ((c, a), (c, b))
  | (.sn, a, b) => ((c, a), (o, b))
  | (.ns, a, b) => ((o, a), (c, b))
  | (.nn, a, b) => ((o, a), (o, b))

/-- default/jacobianengine.hh:250-307  what the engine does at a call of the assembler. The local matrices are added to the
global one at the end (lines 161-176), which is left out because the entries are sums. -/
def jacobianEvent (lop : Lop K) (x : GDof → K) (e : Event) : Calls (GDof × GDof) K :=
  let ig : IG := ⟨e.cell, e.face, e.index, e.outside⟩
  let xs := fun a => x (e.cell, a)
  let xn := fun a => x (e.outside, a)
  match e.kind with
  | .assembleUVVolume =>
    if lop.doAlphaVolume then (lop.jacobianVolume e.cell xs).map fun c => (((e.cell, c.1.1), (e.cell, c.1.2)), c.2) else []
  | .assembleUVSkeleton =>
    if lop.doAlphaSkeleton then
      (lop.jacobianSkeleton ig e.cell xs e.outside xn).map fun c => (blockIndex e.cell e.outside c.1, c.2)
    else []
  | .assembleUVBoundary =>
    if lop.doAlphaBoundary then
      (lop.jacobianBoundary ig e.cell xs).map fun c => (((e.cell, c.1.1), (e.cell, c.1.2)), c.2)
    else []
  | .assembleUVVolumePostSkeleton =>
    if lop.doAlphaVolumePostSkeleton then
      (lop.jacobianVolumePostSkeleton e.cell xs).map fun c => (((e.cell, c.1.1), (e.cell, c.1.2)), c.2)
    else []
  | _ => []

/-- `GridOperator::jacobian`: all contributions to the matrix. Source: gridoperator/gridoperator.hh:184-189. -/
def jacobianCalls (allPartitions : Bool) (cells : List Cell) (lop : Lop K) (x : GDof → K) : Calls (GDof × GDof) K :=
  (assemble (engineOf lop) allPartitions cells).flatMap (jacobianEvent lop x)

/-- The linearisation point handed over by the call switch (callswitch.hh, the overload is selected by `isLinear`).
Source: localoperator/callswitch.hh:47. -/
def linPoint (lop : Lop K) (x : LDof → K) : Option (LDof → K) := if lop.isLinear then none else some x

/-- default/jacobianapplyengine.hh:269-313 (fastdg/jacobianapplyengine.hh:257-287)  what the engine does at a call of the
assembler. There are no post-skeleton terms here. -/
def applyEvent (lop : Lop K) (x z : GDof → K) (e : Event) : Option (Calls GDof K) :=
  let ig : IG := ⟨e.cell, e.face, e.index, e.outside⟩
  let xs := linPoint lop fun a => x (e.cell, a)
  let xn := linPoint lop fun a => x (e.outside, a)
  let zs := fun a => z (e.cell, a)
  let zn := fun a => z (e.outside, a)
  match e.kind with
  | .assembleUVVolume =>
    if lop.doAlphaVolume then (lop.applyVolume e.cell xs zs).map fun l => l.map fun c => ((e.cell, c.1), c.2) else some []
  | .assembleUVSkeleton =>
    if lop.doAlphaSkeleton then
      (lop.applySkeleton ig e.cell xs zs e.outside xn zn).map fun l =>
        l.map fun c => ((match c.1.1 with | .s => e.cell | .n => e.outside, c.1.2), c.2)
    else some []
  | .assembleUVBoundary =>
    if lop.doAlphaBoundary then (lop.applyBoundary ig e.cell xs zs).map fun l => l.map fun c => ((e.cell, c.1), c.2)
    else some []
  | _ => some []

/-- A sequence of calls that may throw. Source: the traversal gridoperator/default/assembler.hh:85-332 with exceptions. -/
def collect {α ι : Type} (f : α → Option (Calls ι K)) : List α → Option (Calls ι K)
  | [] => some []
  | a :: l => do
    let c ← f a
    let cs ← collect f l
    return c ++ cs

/-- `GridOperator::jacobian_apply`: all contributions to the result. Source: gridoperator/gridoperator.hh:192-205. -/
def applyCalls (allPartitions : Bool) (cells : List Cell) (lop : Lop K) (x z : GDof → K) : Option (Calls GDof K) :=
  collect (applyEvent lop x z) (assemble (engineOf lop) allPartitions cells)

/-- The answers of the residual engine for the operators with residual methods only (default/residualengine.hh:73-91). -/
def alphaEngineOf (lop : AlphaLop K) : Engine where
  uvSkeleton := lop.doAlphaSkeleton
  vSkeleton := false
  uvBoundary := lop.doAlphaBoundary
  vBoundary := false
  uvPost := false
  vPost := false
  twoSided := lop.twoSided
  interiorOnly := false
  skipEntity _ := false
  skipIntersection _ _ _ := false

/-- default/residualengine.hh:264-309  what the residual engine does at a call of the assembler. -/
def residualEvent (lop : AlphaLop K) (x : GDof → K) (e : Event) : Calls GDof K :=
  let ig : IG := ⟨e.cell, e.face, e.index, e.outside⟩
  let xs := fun a => x (e.cell, a)
  let xn := fun a => x (e.outside, a)
  match e.kind with
  | .assembleUVVolume =>
    if lop.doAlphaVolume then (lop.alphaVolume e.cell xs).map fun c => ((e.cell, c.1), c.2) else []
  | .assembleUVSkeleton =>
    if lop.doAlphaSkeleton then
      (lop.alphaSkeleton ig e.cell xs e.outside xn).map fun c =>
        ((match c.1.1 with | .s => e.cell | .n => e.outside, c.1.2), c.2)
    else []
  | .assembleUVBoundary =>
    if lop.doAlphaBoundary then (lop.alphaBoundary ig e.cell xs).map fun c => ((e.cell, c.1), c.2) else []
  | _ => []

/-- `GridOperator::residual`: all contributions to the residual. Source: gridoperator/gridoperator.hh:176-181. -/
def residualCalls (allPartitions : Bool) (cells : List Cell) (lop : AlphaLop K) (x : GDof → K) : Calls GDof K :=
  (assemble (alphaEngineOf lop) allPartitions cells).flatMap (residualEvent lop x)

/-! ### One block -/

/-- blockdiagonalwrapper.hh:236-256 (and 275-301, pointdiagonalwrapper.hh:152-175)  the loop over the intersections of a cell;
the switch treats `skeleton` and `boundary` only (there is no cell outside of a boundary). The second pair of space and coefficients is that of the cell, too. -/
def loopFaces {ι : Type} (allPartitions : Bool) (skeleton boundary : IG → Calls ι K) (c : Nat) :
    Nat → List Isect → Calls ι K
  | _, [] => []
  | index, i :: is =>
    let ig : IG := ⟨c, i.face, index, i.outside⟩
    (match classify allPartitions i with
      | .skeleton => skeleton ig
      | .boundary => boundary { ig with outside := 0 }
      | _ => []) ++ loopFaces allPartitions skeleton boundary c (index + 1) is

/-- blockdiagonalwrapper.hh:224-257  `assembleLocalDiagonalBlock`: all four matrices of the skeleton term are `mat`. -/
def assembleLocalDiagonalBlock (allPartitions : Bool) (lop : Lop K) (c : Cell) (x : LDof → K) : Calls (LDof × LDof) K :=
  lop.jacobianVolume c.id x ++
  loopFaces allPartitions
    (fun ig => (lop.jacobianSkeleton ig c.id x c.id x).map fun c => (c.1.2, c.2))
    (fun ig => lop.jacobianBoundary ig c.id x) c.id 0 c.isects

/-- The loop over the intersections with calls that may throw. Source: the same loop as `loopFaces`, blockdiagonalwrapper.hh:224-257. -/
def loopFaces? {ι : Type} (allPartitions : Bool) (skeleton boundary : IG → Option (Calls ι K)) (c : Nat) :
    Nat → List Isect → Option (Calls ι K)
  | _, [] => some []
  | index, i :: is => do
    let ig : IG := ⟨c, i.face, index, i.outside⟩
    let l ← (match classify allPartitions i with
      | .skeleton => skeleton ig
      | .boundary => boundary { ig with outside := 0 }
      | _ => some [])
    let ls ← loopFaces? allPartitions skeleton boundary c (index + 1) is
    return l ++ ls

/-- blockdiagonalwrapper.hh:259-302  `applyLocalDiagonalBlock`. -/
def applyLocalDiagonalBlock (allPartitions : Bool) (lop : Lop K) (c : Cell) (x z : LDof → K) : Option (Calls LDof K) := do
  let p := linPoint lop x
  let v ← callApplyVolume lop c.id p z
  let f ← loopFaces? allPartitions
    (fun ig => (callApplySkeleton lop ig c.id p z c.id p z).map fun l => l.map fun c => (c.1.2, c.2))
    (fun ig => callApplyBoundary lop ig c.id p z) c.id 0 c.isects
  return v ++ f

/-- pointdiagonalwrapper.hh:137-176  `assembleLocalPointDiagonal`. -/
def assembleLocalPointDiagonal (allPartitions : Bool) (lop : AlphaLop K) (c : Cell) (x : LDof → K) : Calls LDof K :=
  lop.alphaVolume c.id x ++
  loopFaces allPartitions
    (fun ig => (lop.alphaSkeleton ig c.id x c.id x).map fun c => (c.1.2, c.2))
    (fun ig => lop.alphaBoundary ig c.id x) c.id 0 c.isects

end Verif.BlockOp
