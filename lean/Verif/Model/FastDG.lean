import Mathlib.Algebra.Ring.Defs
import Verif.Model.GridAssembler
/-
Model of the assembler engines of the FastDG grid operator next to those of the default grid operator, for a discontinuous space: a
vector has one block per cell, a matrix one block per pair of cells.
Sources: dune/pdelab/gridoperator/default/{residual,jacobianapply,jacobian,pattern}engine.hh,
dune/pdelab/gridoperator/fastdg/{residual,jacobianapply,jacobian,pattern}engine.hh, fastdg/localassembler.hh, fastdg.hh,
backend/common/{aliasedvectorview,aliasedmatrixview}.hh, gridfunctionspace/localvector.hh, gridoperator/common/localmatrix.hh.

The default engines copy the coefficients of a cell into local vectors and accumulate into local buffers which are added to the global
container when the space is unbound. The FastDG engines hand the local operator views that point into the global container.

Both are state machines driven by the calls of the global assembler (`Verif.Model.GridAssembler`). The local operator is arbitrary:
which of its methods it switches on, and for each call what it accumulates as a function of the coefficients it sees. A method is
assumed to read the coefficients before it accumulates. For vectors a block is a function on all local indices (its size is not
modelled); for matrices the block size `n` is modelled. Constraints are Dirichlet constraints or none. Communication is not modelled.
-/
namespace Verif.FastDG
open GridAssembler

variable {K : Type}

/-- A vector: coefficient of a cell and local index. The blocks `data(lfs_cache)` points to, aliasedvectorview.hh:64-68. -/
abbrev Vec (K : Type) := Nat → Nat → K

/-- The space an accumulation of a face method goes to: the two residual arguments of `alpha_skeleton`,
fastdg/residualengine.hh:315-327. -/
inductive Side where
  | inside | outside
deriving DecidableEq, Repr

/-- One call of `accumulate` (`raw = false`) or `rawAccumulate` on a residual view: localvector.hh:78-95,
aliasedvectorview.hh:168-178. -/
structure Acc (K : Type) where
  raw : Bool
  dof : Nat
  value : K
deriving DecidableEq, Repr

/-- A local operator as seen by the engines: the compile time flags and the methods called through `LocalAssemblerCallSwitch`
(localoperator/callswitch.hh:194-366). The lists of coefficients are those of the vectors the method gets: the solution for `alpha_*`,
the update, or solution and update, for `jacobian_apply_*`. -/
structure Lop (K : Type) where
  /-- `doAlpha*`, `doLambda*` -/
  flag : Kind → Bool
  /-- `lambda_volume`, `lambda_boundary`, `lambda_volume_post_skeleton` -/
  lambda : Event → List (Acc K)
  lambdaSkeleton : Event → List (Side × Acc K)
  /-- `alpha_volume`, `alpha_boundary`, `alpha_volume_post_skeleton` -/
  alpha : Event → List (Nat → K) → List (Acc K)
  alphaSkeleton : Event → List (Nat → K) → List (Nat → K) → List (Side × Acc K)

/-- Addition to one entry of a local buffer: the `+=` of localvector.hh:82 and 94. -/
def addAt [Add K] (f : Nat → K) (i : Nat) (v : K) : Nat → K := fun j => if j = i then f j + v else f j

/-- Addition to one entry of a global vector: the `+=` of aliasedvectorview.hh:171. -/
def addEntry [Add K] (r : Vec K) (c i : Nat) (v : K) : Vec K := fun c' j => if c' = c ∧ j = i then r c' j + v else r c' j

/-- Addition to one block: `global_rl_view.add(rl)`, default/residualengine.hh:183-187. -/
def addBlock [Add K] (r : Vec K) (c : Nat) (b : Nat → K) : Vec K := fun c' i => if c' = c then r c' i + b i else r c' i

/-- Memory update: the vector with address `a` becomes `v`. Used for `Default.step`, default/residualengine.hh:183-203. -/
def put (mem : Nat → Vec K) (a : Nat) (v : Vec K) : Nat → Vec K := fun b => if b = a then v else mem b

/-- localvector.hh:78-95  what a weighted accumulation view adds: `accumulate` applies the weight, `rawAccumulate` does not. -/
def localScale [Mul K] (w : K) (a : Acc K) : K := if a.raw then a.value else w * a.value

/-- aliasedvectorview.hh:168-178  what the aliased view adds: both `accumulate` and `rawAccumulate` apply the weight. -/
def aliasedScale [Mul K] (w : K) (a : Acc K) : K := w * a.value

/-- localvector.hh:78-95  accumulations into a local buffer. -/
def accLocal [Add K] [Mul K] (w : K) (calls : List (Acc K)) (rl : Nat → K) : Nat → K :=
  calls.foldl (fun r a => addAt r a.dof (localScale w a)) rl

/-- aliasedvectorview.hh:168-178  accumulations through views that point to blocks of a global vector. -/
def accAliased [Add K] [Mul K] (w : K) (calls : List (Nat × Acc K)) (r : Vec K) : Vec K :=
  calls.foldl (fun r p => addEntry r p.1 p.2.dof (aliasedScale w p.2)) r

/-- The accumulations of one side: `rl_view` and `rn_view` of default/residualengine.hh:281-291. -/
def ofSide (s : Side) (calls : List (Side × Acc K)) : List (Acc K) := (calls.filter fun p => p.1 = s).map (·.2)

/-- The accumulations with the cells the two views point to: `global_rl_view` and `global_rn_view` of
fastdg/residualengine.hh:315-327. -/
def toCells (c n : Nat) (calls : List (Side × Acc K)) : List (Nat × Acc K) :=
  calls.map fun p => (match p.1 with | .inside => c | .outside => n, p.2)

/-! Residual and Jacobian application, default engines -/

/-- default/residualengine.hh:354-392, default/jacobianapplyengine.hh:334-380  the state of the engine: global vectors (by address), local
coefficients of the cell and of its neighbour and the local buffers. -/
structure Default (K : Type) where
  mem : Nat → Vec K
  xl : List (Nat → K)
  xn : List (Nat → K)
  rl : Nat → K
  rn : Nat → K

/-- default/residualengine.hh:132-235, 265-350 and default/jacobianapplyengine.hh:135-256, 287-331. `srcs` are the addresses of the
vectors read (solution; update; solution and update), `dst` the address of the vector assembled into, `w` the weight of the local
assembler, `post` is `constrain_residual` (the identity without post-processing). -/
def Default.step [Add K] [Mul K] [Zero K] (lop : Lop K) (srcs : List Nat) (dst : Nat) (w : K) (post : Vec K → Vec K)
    (s : Default K) (e : Event) : Default K :=
  match e.kind with
  | .onBindLFSV => { s with rl := fun _ => 0 }
  | .onBindLFSVOutside => { s with rn := fun _ => 0 }
  | .loadInside => { s with xl := srcs.map fun a => s.mem a e.cell }
  | .loadOutside => { s with xn := srcs.map fun a => s.mem a e.outside }
  | .assembleVVolume | .assembleVBoundary | .assembleVVolumePostSkeleton =>
    if lop.flag e.kind then { s with rl := accLocal w (lop.lambda e) s.rl } else s
  | .assembleUVVolume | .assembleUVBoundary | .assembleUVVolumePostSkeleton =>
    if lop.flag e.kind then { s with rl := accLocal w (lop.alpha e s.xl) s.rl } else s
  | .assembleVSkeleton =>
    if lop.flag e.kind then
      { s with rl := accLocal w (ofSide .inside (lop.lambdaSkeleton e)) s.rl
               rn := accLocal w (ofSide .outside (lop.lambdaSkeleton e)) s.rn }
    else s
  | .assembleUVSkeleton =>
    if lop.flag e.kind then
      { s with rl := accLocal w (ofSide .inside (lop.alphaSkeleton e s.xl s.xn)) s.rl
               rn := accLocal w (ofSide .outside (lop.alphaSkeleton e s.xl s.xn)) s.rn }
    else s
  | .onUnbindLFSVOutside => { s with mem := put s.mem dst (addBlock (s.mem dst) e.outside s.rn) }
  | .onUnbindLFSV => { s with mem := put s.mem dst (addBlock (s.mem dst) e.cell s.rl) }
  | .postAssembly => { s with mem := put s.mem dst (post (s.mem dst)) }
  | _ => s

/-! Residual and Jacobian application, FastDG engines -/

/-- fastdg/residualengine.hh:396-412, fastdg/jacobianapplyengine.hh:311-330  the state of the engine: global vectors and for each view the
cell its data pointer points to (`none`: the null pointer, aliasedvectorview.hh:64-79). -/
structure Fast (K : Type) where
  mem : Nat → Vec K
  sl : Option Nat
  sn : Option Nat
  rl : Option Nat
  rn : Option Nat

/-- fastdg/residualengine.hh:158-262, 297-391 and fastdg/jacobianapplyengine.hh:135-236, 264-308. The arguments are those of
`Default.step`. The coefficients are read from the vectors at the time of the call. `none`: use of a view that is not bound. -/
def Fast.step [Add K] [Mul K] (lop : Lop K) (srcs : List Nat) (dst : Nat) (w : K) (post : Vec K → Vec K)
    (s : Fast K) (e : Event) : Option (Fast K) :=
  match e.kind with
  | .onBindLFSV => some { s with rl := some e.cell }
  | .onBindLFSUV => some { s with sl := some e.cell }
  | .onBindLFSVOutside => some { s with rn := some e.outside }
  | .onBindLFSUVOutside => some { s with sn := some e.outside }
  | .assembleVVolume | .assembleVBoundary | .assembleVVolumePostSkeleton =>
    if lop.flag e.kind then
      s.rl.map fun c => { s with mem := put s.mem dst (accAliased w ((lop.lambda e).map fun a => (c, a)) (s.mem dst)) }
    else some s
  | .assembleUVVolume | .assembleUVBoundary | .assembleUVVolumePostSkeleton =>
    if lop.flag e.kind then
      s.rl.bind fun c => s.sl.map fun d =>
        let calls := (lop.alpha e (srcs.map fun a => s.mem a d)).map fun a => (c, a)
        { s with mem := put s.mem dst (accAliased w calls (s.mem dst)) }
    else some s
  | .assembleVSkeleton =>
    if lop.flag e.kind then
      s.rl.bind fun c => s.rn.map fun n =>
        { s with mem := put s.mem dst (accAliased w (toCells c n (lop.lambdaSkeleton e)) (s.mem dst)) }
    else some s
  | .assembleUVSkeleton =>
    if lop.flag e.kind then
      s.rl.bind fun c => s.rn.bind fun n => s.sl.bind fun d => s.sn.map fun m =>
        let calls := toCells c n (lop.alphaSkeleton e (srcs.map fun a => s.mem a d) (srcs.map fun a => s.mem a m))
        { s with mem := put s.mem dst (accAliased w calls (s.mem dst)) }
    else some s
  | .onUnbindLFSVOutside => some { s with rn := none }
  | .onUnbindLFSV => some { s with rl := none }
  | .postAssembly => some { s with mem := put s.mem dst (post (s.mem dst)) }
  | _ => some s

/-! Jacobian -/

/-- A matrix: row block and row in it, column block and column in it. The blocks `data(row_cache, col_cache)` points to,
backend/istl/bcrsmatrix.hh:236-246. -/
abbrev Mat (K : Type) := Nat → Nat → Nat → Nat → K

/-- The four matrix arguments of `jacobian_skeleton`: rows and columns of the inside (`s`) and outside (`n`) cell,
fastdg/jacobianengine.hh:261-275. -/
inductive Pair where
  | ss | sn | ns | nn
deriving DecidableEq, Repr

/-- One call of `accumulate` or `rawAccumulate` on a matrix view: localmatrix.hh:75-97, aliasedmatrixview.hh:257-267. -/
structure MAcc (K : Type) where
  raw : Bool
  row : Nat
  col : Nat
  value : K
deriving DecidableEq, Repr

/-- localmatrix.hh:75-97, aliasedmatrixview.hh:257-267  what a view adds; here the two agree. -/
def matScale [Mul K] (w : K) (a : MAcc K) : K := if a.raw then a.value else w * a.value

/-- The Jacobian methods of a local operator, localoperator/callswitch.hh:194-366. -/
structure JLop (K : Type) where
  /-- `doAlphaVolume`, `doAlphaSkeleton`, `doAlphaBoundary`, `doAlphaVolumePostSkeleton` -/
  flag : Kind → Bool
  jacobian : Event → (Nat → K) → List (MAcc K)
  jacobianSkeleton : Event → (Nat → K) → (Nat → K) → List (Pair × MAcc K)

/-- localmatrix.hh:75-97  accumulations into a local matrix. -/
def accLocalMat [Add K] [Mul K] (w : K) (calls : List (MAcc K)) (a : Nat → Nat → K) : Nat → Nat → K :=
  calls.foldl (fun a p => fun i j => if i = p.row ∧ j = p.col then a i j + matScale w p else a i j) a

/-- The accumulations into one of the four matrices: `mat_ss` … `mat_nn` of default/jacobianengine.hh:251-261. -/
def ofPair (q : Pair) (calls : List (Pair × MAcc K)) : List (MAcc K) := (calls.filter fun p => p.1 = q).map (·.2)

/-- aliasedmatrixview.hh:257-267  accumulations into one block of the global matrix. -/
def accAliasedMat [Add K] [Mul K] (w : K) (calls : List ((Nat × Nat) × MAcc K)) (A : Mat K) : Mat K :=
  calls.foldl (fun A p => fun r i c j =>
    if (r = p.1.1 ∧ i = p.2.row) ∧ c = p.1.2 ∧ j = p.2.col then A r i c j + matScale w p.2 else A r i c j) A

/-- assemblerutilities.hh:449-460  `scatter_jacobian`: the entries that are not zero are added to the block; if the block is not in the pattern
this is undefined (an exception in a debug build). `n` is the block size. -/
def scatter [Add K] [Zero K] [DecidableEq K] (n : Nat) (pat : Nat → Nat → Bool) (r c : Nat) (a : Nat → Nat → K) (A : Mat K) :
    Option (Mat K) :=
  if pat r c || (List.range n).all fun i => (List.range n).all fun j => decide (a i j = 0) then
    some fun r' i c' j => if r' = r ∧ c' = c ∧ i < n ∧ j < n then A r' i c' j + a i j else A r' i c' j
  else none

/-- backend/istl/bcrsmatrix.hh:254-258  `clear_row(ri, 1)`. -/
def clearRow [Zero K] [One K] (d : Nat × Nat) (A : Mat K) : Mat K := fun r i c j =>
  if r = d.1 ∧ i = d.2 then (if c = d.1 ∧ j = d.2 then 1 else 0) else A r i c j

/-- backend/istl/bcrsmatrix.hh:260-264  `clear_row_block(ri, 1)`: all rows of the block. -/
def clearRowBlock [Zero K] [One K] (d : Nat × Nat) (A : Mat K) : Mat K := fun r i c j =>
  if r = d.1 then (if c = d.1 ∧ j = i then 1 else 0) else A r i c j

/-- default/jacobianengine.hh:299-347  state: global matrix, local coefficients, local matrices. -/
structure JDefault (K : Type) where
  mat : Mat K
  xl : Nat → K
  xn : Nat → K
  ss : Nat → Nat → K
  sn : Nat → Nat → K
  ns : Nat → Nat → K
  nn : Nat → Nat → K

/-- default/jacobianengine.hh:130-212, 243-296. `x` is the solution, `pat` the sparsity pattern of the matrix, `cons` the constrained DOFs
of the test space (empty without post-processing). -/
def JDefault.step [Add K] [Mul K] [Zero K] [One K] [DecidableEq K] (lop : JLop K) (n : Nat) (pat : Nat → Nat → Bool)
    (cons : List (Nat × Nat)) (w : K) (x : Vec K) (s : JDefault K) (e : Event) : Option (JDefault K) :=
  match e.kind with
  | .onBindLFSUV => some { s with ss := fun _ _ => 0 }
  | .onBindLFSUVOutside => some { s with sn := fun _ _ => 0, ns := fun _ _ => 0, nn := fun _ _ => 0 }
  | .loadInside => some { s with xl := x e.cell }
  | .loadOutside => some { s with xn := x e.outside }
  | .assembleUVVolume | .assembleUVBoundary | .assembleUVVolumePostSkeleton =>
    if lop.flag e.kind then some { s with ss := accLocalMat w (lop.jacobian e s.xl) s.ss } else some s
  | .assembleUVSkeleton =>
    if lop.flag e.kind then
      some { s with
        ss := accLocalMat w (ofPair .ss (lop.jacobianSkeleton e s.xl s.xn)) s.ss
        sn := accLocalMat w (ofPair .sn (lop.jacobianSkeleton e s.xl s.xn)) s.sn
        ns := accLocalMat w (ofPair .ns (lop.jacobianSkeleton e s.xl s.xn)) s.ns
        nn := accLocalMat w (ofPair .nn (lop.jacobianSkeleton e s.xl s.xn)) s.nn }
    else some s
  | .onUnbindLFSUVOutside => do
    let A ← scatter n pat e.cell e.outside s.sn s.mat
    let A ← scatter n pat e.outside e.cell s.ns A
    let A ← scatter n pat e.outside e.outside s.nn A
    some { s with mat := A }
  | .onUnbindLFSUV => (scatter n pat e.cell e.cell s.ss s.mat).map fun A => { s with mat := A }
  | .postAssembly => some { s with mat := cons.foldl (fun A d => clearRow d A) s.mat }
  | _ => some s

/-- fastdg/jacobianengine.hh:312-335  state: global matrix and the cells or pairs of cells the views point to. -/
structure JFast (K : Type) where
  mat : Mat K
  xl : Option Nat
  xn : Option Nat
  ss : Option (Nat × Nat)
  sn : Option (Nat × Nat)
  ns : Option (Nat × Nat)
  nn : Option (Nat × Nat)

/-- backend/istl/bcrsmatrix.hh:236-246  `data(row_cache, col_cache)`: the address of the block, undefined if it is not in the pattern. -/
def blockOf (pat : Nat → Nat → Bool) (r c : Nat) : Option (Nat × Nat) := if pat r c then some (r, c) else none

/-- fastdg/jacobianengine.hh:152-222, 253-309, fastdg/localassembler.hh:296-316. Arguments as for `JDefault.step`. `none`: a view is bound to
a block that does not exist, or used while not bound. -/
def JFast.step [Add K] [Mul K] [Zero K] [One K] (lop : JLop K) (pat : Nat → Nat → Bool)
    (cons : List (Nat × Nat)) (w : K) (x : Vec K) (s : JFast K) (e : Event) : Option (JFast K) :=
  match e.kind with
  | .onBindLFSUV => (blockOf pat e.cell e.cell).map fun b => { s with xl := some e.cell, ss := some b }
  | .onBindLFSUVOutside =>
    (blockOf pat e.cell e.outside).bind fun b => (blockOf pat e.outside e.cell).bind fun b' =>
      (blockOf pat e.outside e.outside).map fun b'' =>
        { s with xn := some e.outside, sn := some b, ns := some b', nn := some b'' }
  | .assembleUVVolume | .assembleUVBoundary | .assembleUVVolumePostSkeleton =>
    if lop.flag e.kind then
      s.xl.bind fun d => s.ss.map fun b =>
        { s with mat := accAliasedMat w ((lop.jacobian e (x d)).map fun a => (b, a)) s.mat }
    else some s
  | .assembleUVSkeleton =>
    if lop.flag e.kind then
      s.xl.bind fun d => s.xn.bind fun m => s.ss.bind fun b => s.sn.bind fun b' => s.ns.bind fun b'' => s.nn.map fun b''' =>
        let calls := (lop.jacobianSkeleton e (x d) (x m)).map fun p =>
          (match p.1 with | .ss => b | .sn => b' | .ns => b'' | .nn => b''', p.2)
        { s with mat := accAliasedMat w calls s.mat }
    else some s
  | .onUnbindLFSUVOutside => some { s with sn := none, ns := none, nn := none }
  | .onUnbindLFSUV => some { s with ss := none }
  | .postAssembly => some { s with mat := cons.foldl (fun A d => clearRowBlock d A) s.mat }
  | _ => some s

/-! Pattern -/

/-- The pattern methods of a local operator: the local links `(i, j)` it adds, localoperator/pattern.hh:13-66. -/
structure PLop where
  flag : Kind → Bool
  pattern : Event → List (Nat × Nat)
  /-- the links from inside to outside and from outside to inside -/
  patternSkeleton : Event → List (Nat × Nat) × List (Nat × Nat)

/-- default/patternengine.hh:302-320, fastdg/patternengine.hh:308-327  state: links between the blocks of the global pattern, local patterns. -/
structure PState where
  links : List (Nat × Nat)
  loc : List (Nat × Nat)
  sn : List (Nat × Nat)
  ns : List (Nat × Nat)

/-- default/patternengine.hh:145-158  `add_pattern`: a link between the blocks for every local link (the diagonal entry added by
assemblerutilities.hh:593-599 is in the same block). -/
def addDefault (v u : Nat) (p : List (Nat × Nat)) (links : List (Nat × Nat)) : Option (List (Nat × Nat)) :=
  some (links ++ p.map fun _ => (v, u))

/-- lfsindexcache.hh:306-310, 605-609  in fast mode the index cache fills in the container index of local index 0 only; the others are empty
multi-indices, which cannot be used for a link. -/
def fastIndex (c : Nat) (i : Nat) : Option Nat := if i = 0 then some c else none

/-- fastdg/patternengine.hh:150-166  `add_pattern`: the first local link stands for all of them. -/
def addFast (v u : Nat) (p : List (Nat × Nat)) (links : List (Nat × Nat)) : Option (List (Nat × Nat)) :=
  match p with
  | [] => some links
  | l :: _ => (fastIndex v l.1).bind fun r => (fastIndex u l.2).map fun c => links ++ [(r, c)]

/-- default/patternengine.hh:188-260, fastdg/patternengine.hh:195-267  the engines differ only in `add_pattern`. -/
def PState.step (add : Nat → Nat → List (Nat × Nat) → List (Nat × Nat) → Option (List (Nat × Nat))) (lop : PLop)
    (s : PState) (e : Event) : Option PState :=
  match e.kind with
  | .assembleUVVolume | .assembleUVBoundary | .assembleUVVolumePostSkeleton =>
    if lop.flag e.kind then some { s with loc := s.loc ++ lop.pattern e } else some s
  | .assembleUVSkeleton =>
    if lop.flag e.kind then
      some { s with sn := s.sn ++ (lop.patternSkeleton e).1, ns := s.ns ++ (lop.patternSkeleton e).2 }
    else some s
  | .onUnbindLFSUVOutside =>
    (add e.cell e.outside s.sn s.links).bind fun l => (add e.outside e.cell s.ns l).map fun l =>
      { s with links := l, sn := [], ns := [] }
  | .onUnbindLFSUV => (add e.cell e.cell s.loc s.links).map fun l => { s with links := l, loc := [] }
  | _ => some s

/-! Interpolation of the boundary values -/

/-- fastdg.hh:184-193  `FastDGGridOperator::interpolate(xold, f, x)` on the memory: `src` and `dst` are the addresses of `xold` and `x`, `f`
the interpolation of the function into the space, `constrained` the DOFs of the trial constraints. -/
def interpolate {D : Type} (constrained : D → Bool) (f : D → K) (src dst : Nat) (mem : Nat → D → K) : Nat → D → K :=
  let mem : Nat → D → K := fun a => if a = dst then f else mem a
  fun a => if a = dst then (fun d => if constrained d then mem dst d else mem src d) else mem a

end Verif.FastDG
