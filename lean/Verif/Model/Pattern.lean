/-
Model of the sparsity-pattern builders of the ISTL backend.
Source: /repo/dune/pdelab/backend/istl/bcrspattern.hh
-/
namespace Verif.Pattern

/-- bcrspattern.hh:57  `empty = ~static_cast<size_type>(0)`: the marker of a free slot
(`std::size_t` with 64 bits). -/
def empty : Nat := 2 ^ 64 - 1

/-- `operator<` of `std::pair<size_type,size_type>` (the key order of the overflow `std::set`,
bcrspattern.hh:87 and 311). -/
def pairLt (a b : Nat × Nat) : Bool := a.1 < b.1 || (a.1 == b.1 && a.2 < b.2)

/-- `std::set::insert` (used at bcrspattern.hh:117): a `std::set` is modelled by the list of its
elements in increasing order; inserting a present key changes nothing. -/
def setInsert (x : Nat × Nat) : List (Nat × Nat) → List (Nat × Nat)
  | [] => [x]
  | y :: ys => if pairLt x y then x :: y :: ys
               else if pairLt y x then y :: setInsert x ys
               else y :: ys

/-- `std::set::lower_bound` (used at bcrspattern.hh:223): an iterator into the set is modelled by
the list of elements from its position to the end. -/
def lowerBound (k : Nat × Nat) : List (Nat × Nat) → List (Nat × Nat)
  | [] => []
  | y :: ys => if pairLt y k then lowerBound k ys else y :: ys

/-- bcrspattern.hh:306-311  the data members of `BCRSPattern`. Of the two orderings only
`_row_ordering.blockCount()` (`rows`) is used by the code modelled here. -/
structure Pat where
  rows : Nat
  entriesPerRow : Nat
  indices : List Nat
  overflow : List (Nat × Nat)
deriving Repr, DecidableEq

/-- bcrspattern.hh:264-269  constructor: `blockCount()*entries_per_row` empty slots. -/
def Pat.new (rows epr : Nat) : Pat :=
  { rows := rows, entriesPerRow := epr, indices := List.replicate (rows * epr) empty, overflow := [] }

/-- bcrspattern.hh:102-104  the iterator range `[begin,end)` of the slots of row `i`. -/
def Pat.slots (p : Pat) (i : Nat) : List Nat :=
  (p.indices.drop (p.entriesPerRow * i)).take p.entriesPerRow

/-- bcrspattern.hh:69-83, 107  `std::find_if(begin,end,PaddedColumnCriterion(j))`, as an offset
from `begin`; `none` stands for `end`. -/
def findSlot (j : Nat) : List Nat → Option Nat
  | [] => none
  | k :: ks => if k == j || k == empty then some 0 else (findSlot j ks).map (· + 1)

/-- bcrspattern.hh:96-119  `add_link`. `none`: the row lies outside of the slot array, where the
iterator arithmetic of the code is undefined behaviour. -/
def Pat.addLink (p : Pat) (i j : Nat) : Option Pat :=
  if i < p.rows then
    match findSlot j (p.slots i) with
    | some k => some { p with indices := p.indices.set (p.entriesPerRow * i + k) j }
    | none => some { p with overflow := setInsert (i, j) p.overflow }
  else none

/-- A history of `add_link` calls. Source: the calls of `add_link`, bcrspattern.hh:96-119. -/
def Pat.addLinks (p : Pat) : List (Nat × Nat) → Option Pat
  | [] => some p
  | (i, j) :: h => (p.addLink i j).bind fun p' => p'.addLinks h

/-- bcrspattern.hh:144-149  the inner counting loop: stops at the first empty slot. -/
def countSlots : List Nat → Nat
  | [] => 0
  | k :: ks => if k == empty then 0 else countSlots ks + 1

/-- bcrspattern.hh:152-153  counts the overflow entries of row `i` from the current position and
returns the advanced position. -/
def countOverflow (i : Nat) : List (Nat × Nat) → Nat × List (Nat × Nat)
  | [] => (0, [])
  | y :: ys => if y.1 == i then ((countOverflow i ys).1 + 1, (countOverflow i ys).2) else (0, y :: ys)

/-- bcrspattern.hh:140-155  the loop over the rows `i, i+1, ...` (`n` of them) with the two
running iterators `it` (the slots from `it` to the end of the array) and `oit`. -/
def sizesLoop (epr : Nat) : (n i : Nat) → (it : List Nat) → (oit : List (Nat × Nat)) → List Nat
  | 0, _, _, _ => []
  | n + 1, i, it, oit =>
    let s := countSlots (it.take epr)
    let (so, oit') := countOverflow i oit
    (s + so) :: sizesLoop epr n (i + 1) (it.drop epr) oit'

/-- bcrspattern.hh:134-164  `sizes()`. -/
def Pat.sizes (p : Pat) : List Nat :=
  sizesLoop p.entriesPerRow p.rows 0 p.indices p.overflow

/-- bcrspattern.hh:299-302  `overflowCount()`. -/
def Pat.overflowCount (p : Pat) : Nat := p.overflow.length

/-- bcrspattern.hh:288-292  `clear()` releases both arrays. -/
def Pat.clear (p : Pat) : Pat := { p with indices := [], overflow := [] }

/-- bcrspattern.hh:234-240  the members of `iterator`; the pairs `(_it,_end)` and `(_oit,_oend)`
are modelled by the list of elements between them. -/
structure Iter where
  row : Nat
  inOverflow : Bool
  atEnd : Bool
  it : List Nat
  oit : List (Nat × Nat)
deriving Repr, DecidableEq

/-- "`_it == _end || *_it == empty`" (bcrspattern.hh:195, 227). -/
def slotsDone : List Nat → Bool
  | [] => true
  | k :: _ => k == empty

/-- bcrspattern.hh:217-232  constructor of `iterator`. `none`: row outside of the slot array
(undefined behaviour: `_indices.begin() + row*epr` is past the end and `*_it` is read). -/
def Pat.mkIter (p : Pat) (row : Nat) (atEnd : Bool) : Option Iter :=
  if row < p.rows then
    let it := p.slots row
    let oit := lowerBound (row, 0) p.overflow
    if !atEnd && slotsDone it then
      some { row := row, inOverflow := true, it := it, oit := oit,
             atEnd := match oit with | [] => true | y :: _ => y.1 != row }
    else
      some { row := row, inOverflow := false, atEnd := atEnd, it := it, oit := oit }
  else none

/-- bcrspattern.hh:246-250 `begin(i)`. -/
def Pat.begin (p : Pat) (i : Nat) : Option Iter := p.mkIter i false
/-- bcrspattern.hh:252-256 `end(i)`. -/
def Pat.end' (p : Pat) (i : Nat) : Option Iter := p.mkIter i true

/-- bcrspattern.hh:173-179  `dereference`. `none`: past-the-end read. -/
def Iter.deref (x : Iter) : Option Nat :=
  if x.inOverflow then x.oit.head?.map (·.2) else x.it.head?

/-- bcrspattern.hh:181-203  `increment`. `none`: incrementing `_oit` past the end of the set. -/
def Iter.incr (x : Iter) : Option Iter :=
  if x.inOverflow then
    match x.oit with
    | [] => none
    | _ :: ys =>
      let fin := match ys with | [] => true | y :: _ => y.1 != x.row
      some { x with oit := ys, atEnd := x.atEnd || fin }
  else
    let it' := x.it.tail   -- `if (_it != _end) ++_it`
    if slotsDone it' then
      let fin := match x.oit with | [] => true | y :: _ => decide (y.1 > x.row)
      some { x with it := it', inOverflow := true, atEnd := x.atEnd || fin }
    else some { x with it := it' }

/-- bcrspattern.hh:205-215  `equals`. Two iterators into the same row have the same `_end`/`_oend`,
so equality of positions is equality of the remaining lists' lengths. -/
def Iter.equals (x y : Iter) : Bool :=
  if x.row != y.row then false
  else if x.atEnd || y.atEnd then x.atEnd && y.atEnd
  else if x.inOverflow then x.oit.length == y.oit.length
  else x.it.length == y.it.length

/-- The user's loop `for (it = begin(i); it != end(i); ++it) use(*it)`, with fuel; `none` if
undefined behaviour occurs or the fuel is exhausted. Source: the iterators of bcrspattern.hh:167-256. -/
def traverse : Nat → Iter → Iter → Option (List Nat)
  | 0, _, _ => none
  | f + 1, x, e =>
    if x.equals e then some []
    else x.deref.bind fun v => x.incr.bind fun x' => (traverse f x' e).map (v :: ·)

/-- All columns that a user sees when iterating over row `i`. Source: the iterators of bcrspattern.hh:167-256. -/
def Pat.columns (p : Pat) (i : Nat) : Option (List Nat) :=
  (p.begin i).bind fun b => (p.end' i).bind fun e =>
    traverse (p.entriesPerRow + p.overflow.length + 1) b e

/-- bcrspattern.hh:396-402, 264-311  a pattern of arbitrary nesting: `NestedPattern` stores the
sub patterns row-major (bcrspattern.hh:362-371, `cols` = `_col_ordering.blockCount()`), the
innermost level is a `BCRSPattern`. -/
inductive NPat where
  | leaf (p : Pat)
  | node (cols : Nat) (subs : List NPat)

/-- What the constructors of nested patterns read from the row and column orderings and from
`entries_per_row`: the block counts of every level (`childOrdering(i)`, `childOrdering(j)`) and the
estimate for every leaf block. Used for `NPat.new`, bcrspattern.hh:355-388, 264-269. -/
inductive Shape where
  | leaf (rows entriesPerRow : Nat)
  | node (rows cols : Nat) (sub : Nat → Nat → Shape)

/-- bcrspattern.hh:355-388, 264-269  the constructors (both overloads; a single estimate is the
constant shape). -/
def NPat.new : Shape → NPat
  | .leaf rows epr => .leaf (Pat.new rows epr)
  | .node rows cols sub =>
    .node cols ((List.range rows).flatMap fun i => (List.range cols).map fun j => NPat.new (sub i j))

/-- bcrspattern.hh:347-351 (`NestedPattern::recursive_add_entry`) and 124-128 (`BCRSPattern`).
The multi-indices are given with the last entry (`back()`) first, so `back_popped()` is the tail.
A `BCRSPattern` looks at `back()` only. `none`: index out of range or multi-index exhausted. -/
def NPat.add : NPat → List Nat → List Nat → Option NPat
  | .leaf p, i :: _, j :: _ => (p.addLink i j).map .leaf
  | .node cols subs, i :: ri, j :: ci =>
    match subs[i * cols + j]? with
    | none => none
    | some s => (s.add ri ci).map fun s' => .node cols (subs.set (i * cols + j) s')
  | _, [], _ => none
  | _, _ :: _, [] => none

/-- A history of `add_link` calls on a nested pattern. Source: the calls of `add_link`, bcrspattern.hh:347-351. -/
def NPat.adds (p : NPat) : List (List Nat × List Nat) → Option NPat
  | [] => some p
  | (r, c) :: h => (p.add r c).bind fun p' => p'.adds h

/-- bcrspattern.hh:391-394  `subPattern(i,j)`, applied along a path of block pairs. -/
def NPat.sub : NPat → List (Nat × Nat) → Option NPat
  | p, [] => some p
  | .leaf _, _ :: _ => none
  | .node cols subs, (i, j) :: path =>
    match subs[i * cols + j]? with
    | none => none
    | some s => s.sub path

end Verif.Pattern
