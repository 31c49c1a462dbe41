import Verif.Model.GridViewOrdering
/-
Model of the three routes from DOF indices to container indices: `mapIndex` of an ordering, the tree visitor used by the
index caches of local function spaces (also for subspaces), and the tree visitor used by the index caches of entities.
Sources under /repo/dune/pdelab: gridfunctionspace/lfsindexcache.hh, gridfunctionspace/datahandleprovider.hh,
gridfunctionspace/entityindexcache.hh, gridfunctionspace/subspace.hh, ordering/subordering.hh and the methods `mapIndex`,
`map_lfs_indices` and `extract_entity_indices` of all orderings.

Container indices and tree indices are lists with `back()` at the head. The trees are the ones after `update()`: the nodes hold the arrays
they have computed.
-/
namespace Verif.IndexRoutes
open LeafOrdering (Leaf)
open GridViewOrdering (Local GVO addBack)

/-- A container index (common/multiindex.hh:29-34). -/
abbrev CI := List Nat

/-- A DOF index: geometry type, entity index and tree index (outermost entry first). Used for `DI.view`, lfsindexcache.hh:125-128. -/
structure DI where
  t : Nat
  e : Nat
  path : List Nat
deriving Repr, DecidableEq

/-- lfsindexcache.hh:125-128  the view of a DOF index without the `tail` outermost entries of the tree index. -/
def DI.view (d : DI) (tail : Nat) : DI := { d with path := d.path.drop tail }

/-- A tree of orderings after `update()`.
* `direct`: leaf ordering (leaforderingbase.hh) with its only child (directleaflocalordering.hh);
* `loc`: local ordering below a grid view ordering;
* `gridView`: grid view ordering, its child is `loc g.loc`;
* `lex`, `inter`: nodes with the members `_child_block_offsets`, `_child_block_merge_offsets`;
* `chunked`, `permuted`: decorators with one child. Used for `Tree.mapIndex`, orderingbase.hh:47-58, 232-262. -/
inductive Tree where
  | direct (l : Leaf)
  | loc (l : Local)
  | gridView (g : GVO)
  | lex (blocked : Bool) (offsets : List Nat) (n : Nat) (child : Nat → Tree)
  | inter (blocked : Bool) (merge : List Nat) (n : Nat) (child : Nat → Tree)
  | chunked (bs : Nat) (child : Tree)
  | permuted (perm : List Nat) (child : Tree)

/-! ### Route 1: `mapIndex` -/

/-- `mapIndex`: orderingbase.hh:47-58, 232-262, leaforderingbase.hh:97-141, gridviewordering.hh:574-602,
localorderingbase.hh:73-107 (`map_local_index`, for `loc`), chunkedblockordering.hh:170-178, permutedordering.hh:168-172.
`none`: undefined behaviour or a failing assertion. -/
def Tree.mapIndex : Tree → Nat → Nat → List Nat → Option CI
  | .direct l, t, e, [i] => l.mapIndex t e i
  | .direct _, _, _, _ => none
  | .loc l, t, e, p => l.mapLocal t e p
  | .gridView g, t, e, p => g.mapIndex t e p
  | .lex _ _ _ _, _, _, [] => none
  | .lex blocked offsets n child, t, e, c :: p =>
    if c < n then
      ((child c).mapIndex t e p).bind fun ci =>
        if blocked then some (c :: ci) else offsets[c]?.bind fun o => addBack o ci
    else none
  | .inter _ _ _ _, _, _, [] => none
  | .inter blocked merge n child, t, e, c :: p =>
    if c < n then
      ((child c).mapIndex t e p).bind fun ci =>
        match ci with
        | [] => none
        | back :: rest =>
          merge[c]?.bind fun childBlockOffset => merge[c + 1]?.bind fun next =>
            let childBlockSize := next - childBlockOffset
            if childBlockSize = 0 then none
            else
              let blockIndex := back / childBlockSize
              let offset := back % childBlockSize
              let blockOffset := childBlockOffset + offset
              if blocked then some (blockIndex :: blockOffset :: rest)
              else merge.getLast?.map fun blockSize => (blockIndex * blockSize + blockOffset) :: rest
    else none
  | .chunked bs child, t, e, p =>
    (child.mapIndex t e p).bind fun ci =>
      match ci with
      | [] => none
      | flat :: rest => if bs = 0 then none else some (flat / bs :: flat % bs :: rest)
  | .permuted perm child, t, e, p =>
    (child.mapIndex t e p).bind fun ci =>
      match ci with
      | [] => none
      | back :: rest => perm[back]?.map fun b => b :: rest

/-! ### Route 2: index caches of local function spaces -/

/-- leaforderingbase.hh:144-203  what `map_lfs_indices` of a leaf ordering does with one container index. -/
def leafLfsStep (l : Leaf) (d : DI) (ci : CI) : Option CI :=
  match d.path with
  | [i] =>
    l.gtUsed[d.t]?.bind fun u =>
      if u then
        if l.fixed then
          l.gtDofOffsets[d.t]?.bind fun off =>
            if l.blocked then some ((off + d.e) :: i :: ci)
            else l.gtDofSizes[d.t]?.map fun s => (i + (off + d.e * s)) :: ci
        else
          l.gtEntityOffsets[d.t]?.bind fun off =>
            if l.blocked then some ((off + d.e) :: i :: ci)
            else l.entityDofOffsets[off + d.e]?.map fun o => (i + o) :: ci
      else none
  | _ => none

/-- localorderingbase.hh:121-171  `map_lfs_indices` of a local ordering. -/
def localLfsStep : Local → DI → CI → Option CI
  | .leaf _, d, ci =>
    match d.path with
    | [i] => some (i :: ci)
    | _ => none
  | .node blocked a n _, d, ci =>
    match d.path with
    | [] => none
    | c :: _ =>
      if blocked then some (c :: ci)
      else a.bind fun a =>
        if a.fixed then
          if 0 < c then a.gtDofOffsets[d.t * n + c - 1]?.bind fun o => addBack o ci else some ci
        else if 0 < c then
          a.gtUsed[d.t]?.bind fun u =>
            if u then a.gtEntityOffsets[d.t]?.bind fun off =>
              a.entityDofOffsets[(off + d.e) * n + c - 1]?.bind fun o => addBack o ci
            else none
        else some ci

/-- gridviewordering.hh:604-643  `map_lfs_indices` of a grid view ordering. -/
def gvoLfsStep (g : GVO) (d : DI) (ci : CI) : Option CI :=
  if g.blocked then
    if g.fixed then g.gtDofOffsets[d.t]?.map fun off => (off + d.e) :: ci
    else g.gtEntityOffsets[d.t]?.bind fun off => g.entityDofOffsets[off + d.e]?.map fun b => b :: ci
  else if g.fixed then
    g.gtDofOffsets[d.t]?.bind fun off => (g.loc.size d.t d.e).bind fun s => addBack (off + d.e * s) ci
  else g.gtEntityOffsets[d.t]?.bind fun off => g.entityDofOffsets[off + d.e]?.bind fun o => addBack o ci

/-- lexicographicordering.hh:59-72. -/
def lexLfsStep (blocked : Bool) (offsets : List Nat) (d : DI) (ci : CI) : Option CI :=
  match d.path with
  | [] => none
  | c :: _ => if blocked then some (c :: ci) else offsets[c]?.bind fun o => addBack o ci

/-- interleavedordering.hh:61-95. -/
def interLfsStep (blocked : Bool) (merge : List Nat) (d : DI) (ci : CI) : Option CI :=
  match d.path, ci with
  | c :: _, index :: rest =>
    merge[c]?.bind fun childBlockOffset => merge[c + 1]?.bind fun next =>
      let childBlockSize := next - childBlockOffset
      if childBlockSize = 0 then none
      else
        let blockIndex := index / childBlockSize
        let offset := index % childBlockSize
        let blockOffset := childBlockOffset + offset
        if blocked then some (blockIndex :: blockOffset :: rest)
        else merge.getLast?.map fun blockSize => (blockIndex * blockSize + blockOffset) :: rest
  | _, _ => none

/-- chunkedblockordering.hh:180-191. -/
def chunkLfsStep (bs : Nat) (ci : CI) : Option CI :=
  match ci with
  | [] => none
  | flat :: rest => if bs = 0 then none else some (flat / bs :: flat % bs :: rest)

/-- permutedordering.hh:174-181. -/
def permLfsStep (perm : List Nat) (ci : CI) : Option CI :=
  match ci with
  | [] => none
  | back :: rest => perm[back]?.map fun b => b :: rest

/-- `map_lfs_indices` of a node for one container index. Used for `mapAncestors`, subordering.hh:124-160. -/
def Tree.lfsStep : Tree → DI → CI → Option CI
  | .direct l, d, ci => leafLfsStep l d ci
  | .loc l, d, ci => localLfsStep l d ci
  | .gridView g, d, ci => gvoLfsStep g d ci
  | .lex blocked offsets _ _, d, ci => lexLfsStep blocked offsets d ci
  | .inter blocked merge _ _, d, ci => interLfsStep blocked merge d ci
  | .chunked bs _, _, ci => chunkLfsStep bs ci
  | .permuted perm _, _, ci => permLfsStep perm ci

/-- The constants `consume_tree_index`: localorderingbase.hh:61, entityblockedlocalordering.hh:47,171,
gridviewordering.hh:446, leaforderingbase.hh:33, lexicographicordering.hh:46, interleavedordering.hh:40,
chunkedblockordering.hh:122, permutedordering.hh:112. -/
def Tree.consume : Tree → Bool
  | .direct _ => false
  | .loc _ => true
  | .gridView _ => false
  | .lex _ _ _ _ => true
  | .inter _ _ _ _ => true
  | .chunked _ _ => false
  | .permuted _ _ => false

/-- lfsindexcache.hh:24-140  iterator over views: position and length of the part cut off. -/
structure It where
  pos : Nat
  tail : Nat
deriving Repr, DecidableEq

/-- The loop `for (in = begin; in != end; ++in, ++out)` in all versions of `map_lfs_indices`, `n` iterations.
Used for `Tree.lfsVisit`, lfsindexcache.hh:173-239. -/
def mapLoop (step : DI → CI → Option CI) (D : List DI) : Nat → Nat → Nat → Nat → List CI → Option (List CI)
  | 0, _, _, _, cis => some cis
  | n + 1, pos, tail, out, cis =>
    D[pos]?.bind fun d => cis[out]?.bind fun ci => (step (d.view tail) ci).bind fun ci' =>
      mapLoop step D n (pos + 1) tail (out + 1) (cis.set out ci')

/-- The loop over a range given by two iterators, used for `Tree.lfsVisit`, lfsindexcache.hh:173-239. -/
def mapRange (step : DI → CI → Option CI) (D : List DI) (first last : It) (out : Nat) (cis : List CI) :
    Option (List CI) :=
  if first.pos ≤ last.pos then mapLoop step D (last.pos - first.pos) first.pos first.tail out cis else none

/-- lfsindexcache.hh:232-237  members of the visitor; the two stacks are the local variables of the recursion over the tree. -/
structure VS where
  dofPos : It
  dofEnd : It
  contPos : Nat
  leafPos : Nat
  cis : List CI
deriving Repr, DecidableEq

/-- lfsindexcache.hh:183-194  `leaf` (not `fast`); `map` is `map_lfs_indices` of the leaf. -/
def visitLeaf (map : It → It → Nat → List CI → Option (List CI)) (sizes : List Nat) (s : VS) : Option VS :=
  sizes[s.leafPos]?.bind fun leafSize =>
    let dofEnd := { s.dofEnd with pos := s.dofEnd.pos + leafSize }
    (map s.dofPos dofEnd s.contPos s.cis).map fun cis =>
      { dofPos := dofEnd, dofEnd := dofEnd, contPos := s.contPos + leafSize, leafPos := s.leafPos + 1, cis := cis }

/-- lfsindexcache.hh:209-219  `pre`, without the stacks. -/
def visitPre (consume : Bool) (s : VS) : VS :=
  if consume then
    { s with dofPos := { s.dofPos with tail := s.dofPos.tail + 1 }, dofEnd := { s.dofEnd with tail := s.dofEnd.tail + 1 } }
  else s

/-- lfsindexcache.hh:196-207  `post`; `dofTop`, `contTop` are the tops of the stacks. -/
def visitPost (consume : Bool) (map : It → It → Nat → List CI → Option (List CI)) (dofTop : It) (contTop : Nat) (s : VS) :
    Option VS :=
  let s := if consume then
      { s with dofPos := { s.dofPos with tail := s.dofPos.tail - 1 }, dofEnd := { s.dofEnd with tail := s.dofEnd.tail - 1 } }
    else s
  (map dofTop s.dofEnd contTop s.cis).map fun cis => { s with cis := cis }

/-- The visitor in a tree of local orderings. Used for `Tree.lfsVisit`, lfsindexcache.hh:173-239. -/
def localLfsVisit (D : List DI) (sizes : List Nat) : Local → VS → Option VS
  | .leaf a, s => visitLeaf (mapRange (localLfsStep (.leaf a)) D) sizes s
  | .node blocked a n child, s =>
    ((List.range n).foldlM (fun s i => localLfsVisit D sizes (child i) s) (visitPre true s)).bind
      (visitPost true (mapRange (localLfsStep (.node blocked a n child)) D) s.dofPos s.contPos)

/-- lfsindexcache.hh:173-239  the visitor applied to a tree of orderings. `map_lfs_indices` of the child of a leaf ordering
(directleaflocalordering.hh:58-62) does nothing. -/
def Tree.lfsVisit (D : List DI) (sizes : List Nat) : Tree → VS → Option VS
  | .direct l, s =>
    (visitLeaf (fun _ _ _ cis => some cis) sizes (visitPre false s)).bind
      (visitPost false (mapRange (leafLfsStep l) D) s.dofPos s.contPos)
  | .loc l, s => localLfsVisit D sizes l s
  | .gridView g, s =>
    (localLfsVisit D sizes g.loc (visitPre false s)).bind (visitPost false (mapRange (gvoLfsStep g) D) s.dofPos s.contPos)
  | .lex blocked offsets n child, s =>
    ((List.range n).foldlM (fun s i => (child i).lfsVisit D sizes s) (visitPre true s)).bind
      (visitPost true (mapRange (lexLfsStep blocked offsets) D) s.dofPos s.contPos)
  | .inter blocked merge n child, s =>
    ((List.range n).foldlM (fun s i => (child i).lfsVisit D sizes s) (visitPre true s)).bind
      (visitPost true (mapRange (interLfsStep blocked merge) D) s.dofPos s.contPos)
  | .chunked bs child, s =>
    (child.lfsVisit D sizes (visitPre false s)).bind
      (visitPost false (mapRange (fun _ => chunkLfsStep bs) D) s.dofPos s.contPos)
  | .permuted perm child, s =>
    (child.lfsVisit D sizes (visitPre false s)).bind
      (visitPost false (mapRange (fun _ => permLfsStep perm) D) s.dofPos s.contPos)

/-- lfsindexcache.hh:304-335  `update()` of the cache of a local function space (not `fast`, without constraints): `D` are
the DOF indices of the local function space, `sizes` its leaf sizes, `n` = `maxSize()`. -/
def lfsCache (T : Tree) (sizes : List Nat) (D : List DI) (n : Nat) : Option (List CI) :=
  (T.lfsVisit D sizes ⟨⟨0, 0⟩, ⟨0, 0⟩, 0, 0, List.replicate n []⟩).map (·.cis)

/-- lfsindexcache.hh:306-310, 605-609  the `fast` version only sets the index of the first DOF. -/
def fastCache (D : List DI) : Option CI := D[0]?.map fun d => [d.e, 0]

/-! Subspaces -/

/-- Child of a node in the ordering tree. Used for `ancestors`, subspace.hh:52-91. -/
def Tree.childAt : Tree → Nat → Option Tree
  | .direct _, _ => none
  | .loc (.leaf _), _ => none
  | .loc (.node _ _ n child), c => if c < n then some (.loc (child c)) else none
  | .gridView g, c => if c = 0 then some (.loc g.loc) else none
  | .lex _ _ n child, c => if c < n then some (child c) else none
  | .inter _ _ n child, c => if c < n then some (child c) else none
  | .chunked _ child, c => if c = 0 then some child else none
  | .permuted _ child, c => if c = 0 then some child else none

/-- subspace.hh:52-91  `create_ordering_treepath_for_sub_gfs` together with the nodes on the way: the orderings from the one
of the subspace (first) up to the root (last). `fuel` bounds the number of synthesized nodes. -/
def ancestors : Nat → Tree → List Nat → List Tree → Option (List Tree)
  | _, T, [], up => some (T :: up)
  | 0, _, _ :: _, _ => none
  | fuel + 1, T, c :: p, up =>
    if T.consume then (T.childAt c).bind fun C => ancestors fuel C p (T :: up)
    else (T.childAt 0).bind fun C => ancestors fuel C (c :: p) (T :: up)

/-- subordering.hh:124-160  `map_lfs_indices_to_root_space` for the ancestors of the target. -/
def mapAncestors (D : List DI) : List Tree → It → It → Nat → List CI → Option (List CI)
  | [], _, _, _, cis => some cis
  | T :: up, first, last, out, cis =>
    let first' := if T.consume then { first with tail := first.tail - 1 } else first
    let last' := if T.consume then { last with tail := last.tail - 1 } else last
    (mapRange T.lfsStep D first' last' out cis).bind (mapAncestors D up first' last' out)

/-- subordering.hh:108-119, 124-160  `map_lfs_indices` of a sub ordering. -/
def subMap (D : List DI) (T : Tree) (up : List Tree) (first last : It) (out : Nat) (cis : List CI) : Option (List CI) :=
  (mapRange T.lfsStep D first last out cis).bind (mapAncestors D up first last out)

/-- The visitor applied to a sub ordering: the root of the visited tree is the sub ordering, its children are those of the
target ordering (proxy node, subordering.hh:51-53, 75). -/
def subVisit (D : List DI) (sizes : List Nat) (up : List Tree) (T : Tree) (s : VS) : Option VS :=
  match T with
  | .direct l =>
    (visitLeaf (fun _ _ _ cis => some cis) sizes (visitPre false s)).bind
      (visitPost false (subMap D (.direct l) up) s.dofPos s.contPos)
  | .loc (.leaf a) => visitLeaf (subMap D (.loc (.leaf a)) up) sizes s
  | .loc (.node blocked a n child) =>
    ((List.range n).foldlM (fun s i => localLfsVisit D sizes (child i) s) (visitPre true s)).bind
      (visitPost true (subMap D (.loc (.node blocked a n child)) up) s.dofPos s.contPos)
  | .gridView g =>
    (localLfsVisit D sizes g.loc (visitPre false s)).bind (visitPost false (subMap D (.gridView g) up) s.dofPos s.contPos)
  | .lex blocked offsets n child =>
    ((List.range n).foldlM (fun s i => (child i).lfsVisit D sizes s) (visitPre true s)).bind
      (visitPost true (subMap D (.lex blocked offsets n child) up) s.dofPos s.contPos)
  | .inter blocked merge n child =>
    ((List.range n).foldlM (fun s i => (child i).lfsVisit D sizes s) (visitPre true s)).bind
      (visitPost true (subMap D (.inter blocked merge n child) up) s.dofPos s.contPos)
  | .chunked bs child =>
    (child.lfsVisit D sizes (visitPre false s)).bind
      (visitPost false (subMap D (.chunked bs child) up) s.dofPos s.contPos)
  | .permuted perm child =>
    (child.lfsVisit D sizes (visitPre false s)).bind
      (visitPost false (subMap D (.permuted perm child) up) s.dofPos s.contPos)

/-- lfsindexcache.hh:304-335 for a local function space of a subspace with the path `sub` (`subSpaceDepth()` = its length). -/
def subCache (fuel : Nat) (T : Tree) (sub : List Nat) (sizes : List Nat) (D : List DI) (n : Nat) : Option (List CI) :=
  (ancestors fuel T sub []).bind fun
    | [] => none
    | target :: up =>
      (subVisit D sizes up target ⟨⟨0, sub.length⟩, ⟨0, sub.length⟩, 0, 0, List.replicate n []⟩).map (·.cis)

/-! ### Route 3: index caches of entities -/

/-- datahandleprovider.hh:169-181  members of the visitor, the stack is the recursion; the DOF indices are given by their tree indices. -/
structure XS where
  ciIt : Nat
  ciEnd : Nat
  diIt : Nat
  diEnd : Nat
  cis : List CI
  dis : List (List Nat)
deriving Repr, DecidableEq

/-- The loop `for (; out != end; ++out)`, `n` iterations, or `for (i = 0; i < n; ++i, ++out)` (with the number of the iteration).
Used for `leafExtract`, leaforderingbase.hh:206-262. -/
def modifyLoop (f : Nat → List Nat → Option (List Nat)) : Nat → Nat → Nat → List (List Nat) → Option (List (List Nat))
  | 0, _, _, l => some l
  | n + 1, i, pos, l => l[pos]?.bind fun x => (f i x).bind fun y => modifyLoop f n (i + 1) (pos + 1) (l.set pos y)

/-- leaforderingbase.hh:206-262  `extract_entity_indices` of a leaf ordering, starting at position `out`. -/
def leafExtract (l : Leaf) (t e : Nat) (out : Nat) (cis : List CI) : Option (List CI) :=
  l.gtUsed[t]?.bind fun u =>
    if u then
      if l.fixed then
        l.gtDofSizes[t]?.bind fun size => l.gtDofOffsets[t]?.bind fun off =>
          if l.blocked then modifyLoop (fun i ci => some ((off + e) :: i :: ci)) size 0 out cis
          else modifyLoop (fun i ci => some ((i + (off + e * size)) :: ci)) size 0 out cis
      else
        l.gtEntityOffsets[t]?.bind fun off => l.entityDofOffsets[off + e + 1]?.bind fun b =>
          l.entityDofOffsets[off + e]?.bind fun a =>
            if l.blocked then modifyLoop (fun i ci => some ((off + e) :: i :: ci)) (b - a) 0 out cis
            else modifyLoop (fun i ci => some ((i + a) :: ci)) (b - a) 0 out cis
    else some cis

/-- localorderingbase.hh:199-226  `extract_entity_indices` of an inner local ordering for one container index. -/
def localExtStep (blocked : Bool) (a : GridViewOrdering.Arrays) (n : Nat) (t e c : Nat) (ci : CI) : Option CI :=
  a.gtUsed[t]?.bind fun u =>
    if u then
      if blocked then some (c :: ci)
      else if 0 < c then
        if a.fixed then a.gtDofOffsets[t * n + c - 1]?.bind fun o => addBack o ci
        else a.gtEntityOffsets[t]?.bind fun off => a.entityDofOffsets[(off + e) * n + c - 1]?.bind fun o => addBack o ci
      else some ci
    else some ci

/-- gridviewordering.hh:645-686. -/
def gvoExtStep (g : GVO) (t e : Nat) (ci : CI) : Option CI :=
  if g.blocked then
    if g.fixed then g.gtDofOffsets[t]?.map fun off => (off + e) :: ci
    else g.gtEntityOffsets[t]?.bind fun off => g.entityDofOffsets[off + e]?.map fun b => b :: ci
  else if g.fixed then
    g.gtDofOffsets[t]?.bind fun off => (g.loc.size t e).bind fun s => addBack (off + e * s) ci
  else g.gtEntityOffsets[t]?.bind fun off => g.entityDofOffsets[off + e]?.bind fun o => addBack o ci

/-- lexicographicordering.hh:74-97. -/
def lexExtStep (blocked : Bool) (offsets : List Nat) (c : Nat) (ci : CI) : Option CI :=
  if blocked then some (c :: ci) else offsets[c]?.bind fun o => addBack o ci

/-- interleavedordering.hh:98-134. -/
def interExtStep (blocked : Bool) (merge : List Nat) (c : Nat) (ci : CI) : Option CI :=
  match ci with
  | [] => none
  | index :: rest =>
    merge[c]?.bind fun childBlockOffset => merge[c + 1]?.bind fun next =>
      let childBlockSize := next - childBlockOffset
      if childBlockSize = 0 then none
      else
        let blockIndex := index / childBlockSize
        let offset := index % childBlockSize
        let blockOffset := childBlockOffset + offset
        if blocked then some (blockIndex :: blockOffset :: rest)
        else merge.getLast?.map fun blockSize => (blockIndex * blockSize + childBlockOffset + offset) :: rest

/-- chunkedblockordering.hh:193-208. -/
def chunkExtStep (bs : Nat) (ci : CI) : Option CI :=
  match ci with
  | [] => none
  | flat :: rest => if bs = 0 then none else some (flat / bs :: flat % bs :: rest)

/-- permutedordering.hh:183-194. -/
def permExtStep (perm : List Nat) (ci : CI) : Option CI :=
  match ci with
  | [] => none
  | back :: rest => perm[back]?.map fun b => b :: rest

/-- datahandleprovider.hh:103-117  `leaf`: `size` entries have been added. -/
def extAdvance (size : Nat) (s : XS) : XS :=
  { s with ciIt := s.ciEnd + size, ciEnd := s.ciEnd + size, diIt := s.diEnd + size, diEnd := s.diEnd + size }

/-- datahandleprovider.hh:119-135  `afterChild`; `top` is the state in which `beforeChild` pushed the iterators; `ext` is
`extract_entity_indices` of the ordering. -/
def afterChild (consume : Bool) (c : Nat) (ext : Nat → Nat → List CI → Option (List CI)) (top s : XS) : Option XS :=
  (ext top.ciIt s.ciEnd s.cis).bind fun cis =>
    if consume then
      (modifyLoop (fun _ p => some (c :: p)) (s.diEnd - top.diIt) 0 top.diIt s.dis).map fun dis =>
        { s with cis := cis, dis := dis }
    else some { s with cis := cis }

/-- The loop over all container indices from `out` to `end`. Used for `Tree.extVisit`, datahandleprovider.hh:81-182. -/
def extRange (step : CI → Option CI) (out last : Nat) (cis : List CI) : Option (List CI) :=
  if out ≤ last then modifyLoop (fun _ => step) (last - out) 0 out cis else none

/-- localorderingbase.hh:186-199  `extract_entity_indices` of a leaf: its size, after pushing the numbers of the DOFs. -/
def localLeafExtract (a : GridViewOrdering.Arrays) (t e : Nat) (s : XS) : Option (Nat × XS) :=
  a.gtUsed[t]?.bind fun u =>
    if u then
      (if a.fixed then a.gtDofOffsets[t]? else a.gtEntityOffsets[t]?.bind fun off => a.entityDofOffsets[off + e]?).bind fun size =>
        (modifyLoop (fun i ci => some (i :: ci)) size 0 s.ciIt s.cis).bind fun cis =>
          (modifyLoop (fun i p => some (i :: p)) size 0 s.diIt s.dis).map fun dis => (size, { s with cis := cis, dis := dis })
    else some (0, s)

/-- The visitor in a tree of local orderings. Used for `Tree.extVisit`, datahandleprovider.hh:81-182. -/
def localExtVisit (t e : Nat) : Local → XS → Option XS
  | .leaf a, s => a.bind fun a => (localLeafExtract a t e s).map fun r => extAdvance r.1 r.2
  | .node blocked a n child, s =>
    (List.range n).foldlM (fun s c => (localExtVisit t e (child c) s).bind fun s' =>
      afterChild true c (fun out last cis => a.bind fun a => extRange (localExtStep blocked a n t e c) out last cis) s s') s

/-- datahandleprovider.hh:81-182  the visitor applied to a tree of orderings; the child of a leaf ordering pushes only DOF indices
(directleaflocalordering.hh:64-80). -/
def Tree.extVisit (t e : Nat) : Tree → XS → Option XS
  | .direct l, s =>
    (l.entitySize t e).bind fun size =>
      (modifyLoop (fun i p => some (i :: p)) size 0 s.diIt s.dis).bind fun dis =>
        afterChild false 0 (fun out _ cis => leafExtract l t e out cis) s (extAdvance size { s with dis := dis })
  | .loc l, s => localExtVisit t e l s
  | .gridView g, s =>
    (localExtVisit t e g.loc s).bind fun s' => afterChild false 0 (extRange (gvoExtStep g t e)) s s'
  | .lex blocked offsets n child, s =>
    (List.range n).foldlM (fun s c => ((child c).extVisit t e s).bind fun s' =>
      afterChild true c (extRange (lexExtStep blocked offsets c)) s s') s
  | .inter blocked merge n child, s =>
    (List.range n).foldlM (fun s c => ((child c).extVisit t e s).bind fun s' =>
      afterChild true c (extRange (interExtStep blocked merge c)) s s') s
  | .chunked bs child, s =>
    (child.extVisit t e s).bind fun s' => afterChild false 0 (extRange (chunkExtStep bs)) s s'
  | .permuted perm child, s =>
    (child.extVisit t e s).bind fun s' => afterChild false 0 (extRange (permExtStep perm)) s s'

/-- The sizes of the leaves of a local ordering on an entity. Used for `Tree.leafSizes`, datahandleprovider.hh:50-78. -/
def localLeafSizes (t e : Nat) : Local → Option (List Nat)
  | .leaf a => ((Local.leaf a).size t e).map fun s => [s]
  | .node _ _ n child => ((List.range n).mapM fun c => localLeafSizes t e (child c)).map List.flatten

/-- datahandleprovider.hh:50-78  `get_leaf_offsets_for_entity`: the sizes of the leaves on an entity. -/
def Tree.leafSizes (t e : Nat) : Tree → Option (List Nat)
  | .direct l => (l.entitySize t e).map fun s => [s]
  | .loc l => localLeafSizes t e l
  | .gridView g => localLeafSizes t e g.loc
  | .lex _ _ n child => ((List.range n).mapM fun c => (child c).leafSizes t e).map List.flatten
  | .inter _ _ n child => ((List.range n).mapM fun c => (child c).leafSizes t e).map List.flatten
  | .chunked _ child => child.leafSizes t e
  | .permuted _ child => child.leafSizes t e

/-- The result of an update of the cache of an entity. Used for `entityCache`, datahandleprovider.hh:287-342. -/
structure EntityCache where
  offsets : List Nat
  cis : List CI
  dis : List DI
deriving Repr, DecidableEq

/-- datahandleprovider.hh:287-342 and entityindexcache.hh:49-57  `update(e)` of the cache of an entity with DOFs on its
codimension. `leaf_count` is the number of entries written by the visitor. -/
def entityCache (T : Tree) (t e : Nat) : Option EntityCache :=
  (T.leafSizes t e).bind fun sizes =>
    let offsets := Orderings.partialSums 0 sizes
    let size := offsets.getLast?.getD 0
    (T.extVisit t e ⟨0, 0, 0, 0, List.replicate size [], List.replicate size []⟩).map fun s =>
      ⟨offsets, s.cis, s.dis.map fun p => ⟨t, e, p⟩⟩

end Verif.IndexRoutes
