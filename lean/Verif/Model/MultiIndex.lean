/-
Model of dune/pdelab/common/multiindex.hh. The base class `ReservedVector<T,n>` (dune-common) is an array of
`n` cells and a size; its checks (`assert` on the index and on the size) are part of the model.
An outcome `none` is a failed check (or, with checks compiled out, undefined behaviour).
-/
namespace Verif.MIndex

/-- multiindex.hh:31-34  a multi-index of capacity `cells.length` with `sz` valid entries. -/
structure MI where
  cells : List Nat
  sz : Nat
deriving Repr, DecidableEq

/-- `max_size()` / `max_depth` (multiindex.hh:40-41). -/
@[reducible] def MI.capacity (m : MI) : Nat := m.cells.length

/-- multiindex.hh:150-151 default constructor (a value-initialised array in ReservedVector). -/
def MI.empty (n : Nat) : MI := ⟨List.replicate n 0, 0⟩

/-- `ReservedVector::clear` Used for `MI.set`, multiindex.hh:185-189. -/
def MI.clear (m : MI) : MI := { m with sz := 0 }

/-- `ReservedVector::resize`: asserts `s <= n`; the cells are not touched. Used for `MI.pushFront`, multiindex.hh:219-225. -/
def MI.resize (m : MI) (s : Nat) : Option MI := if s ≤ m.capacity then some { m with sz := s } else none

/-- `ReservedVector::push_back`: asserts `size() < n`. Used for `MI.set`, multiindex.hh:185-189. -/
def MI.pushBack (m : MI) (t : Nat) : Option MI :=
  if m.sz < m.capacity then some ⟨m.cells.set m.sz t, m.sz + 1⟩ else none

/-- `ReservedVector::pop_back`; the assertion is that of `pop_front`. Removing from an empty vector is `none`.
Source: common/multiindex.hh:31-34 (the base class). -/
def MI.popBack (m : MI) : Option MI := if 0 < m.sz then some { m with sz := m.sz - 1 } else none

/-- `ReservedVector::operator[]`; asserts `i < size()`. Used for `MI.front`, multiindex.hh:196-210. -/
def MI.get (m : MI) (i : Nat) : Option Nat := if i < m.sz then m.cells[i]? else none

/-- assignment through `operator[]`. Used for `MI.pushFront`, multiindex.hh:219-225. -/
def MI.put (m : MI) (i t : Nat) : Option MI :=
  if i < m.sz then some { m with cells := m.cells.set i t } else none

/-- multiindex.hh:196-210 `front` / `back`. -/
def MI.front (m : MI) : Option Nat := m.get 0
/-- multiindex.hh:202-209 `back`. -/
def MI.back (m : MI) : Option Nat := if 0 < m.sz then m.get (m.sz - 1) else none

/-- multiindex.hh:185-189 `set`. -/
def MI.set (m : MI) (t : Nat) : Option MI := m.clear.pushBack t

/-- `std::copy(first+src, first+src+cnt, first+dst)` on the array, in ascending order. Used for `MI.popFront`, multiindex.hh:242-249. -/
def copyUp (a : List Nat) (src dst : Nat) : Nat → List Nat
  | 0 => a
  | cnt + 1 => copyUp (a.set dst (a.getD src 0)) (src + 1) (dst + 1) cnt

/-- `std::copy_backward(first, first+cnt, first+cnt+1)`: shift by one to the right, in descending order.
Used for `MI.pushFront`, multiindex.hh:219-225. -/
def shiftBackward (a : List Nat) : Nat → List Nat
  | 0 => a
  | cnt + 1 => shiftBackward (a.set (cnt + 1) (a.getD cnt 0)) cnt

/-- multiindex.hh:219-225 `push_front`. -/
def MI.pushFront (m : MI) (t : Nat) : Option MI :=
  (m.resize (m.sz + 1)).bind fun m' => ({ m' with cells := shiftBackward m'.cells m.sz } : MI).put 0 t

/-- multiindex.hh:242-249 `pop_front`. -/
def MI.popFront (m : MI) : Option MI :=
  if m.sz = 0 then none
  else
    let cells := if 1 < m.sz then copyUp m.cells 1 0 (m.sz - 1) else m.cells
    ({ m with cells := cells } : MI).resize (m.sz - 1)

/-- multiindex.hh:259-262 `accumulate_back`. -/
def MI.accumulateBack (m : MI) (t : Nat) : Option MI :=
  m.back.bind fun b => m.put (m.sz - 1) (b + t)

/-- multiindex.hh:265-268 `accumulate_front`. -/
def MI.accumulateFront (m : MI) (t : Nat) : Option MI :=
  m.front.bind fun b => m.put 0 (b + t)

/-- `std::copy(tail.begin(), tail.end(), head.begin()+pos)` between different arrays. Used for `MI.join`, multiindex.hh:271-277. -/
def copyInto (a : List Nat) (pos : Nat) : List Nat → List Nat
  | [] => a
  | x :: xs => copyInto (a.set pos x) (pos + 1) xs

/-- multiindex.hh:271-277 `join` (both of the same type, i.e. the same capacity). -/
def MI.join (head tail : MI) : Option MI :=
  if head.sz + tail.sz ≤ head.capacity then
    (head.resize (head.sz + tail.sz)).map fun h =>
      { h with cells := copyInto h.cells head.sz (tail.cells.take tail.sz) }
  else none

/-- `std::reverse` on `[0,n)` of an array: swap the ends and proceed inwards. Used for `MI.reverse`, multiindex.hh:280-284. -/
def reverseRange (a : List Nat) (first : Nat) : Nat → List Nat
  | 0 => a
  | fuel + 1 => fun_aux a first fuel
where
  /-- one swap of positions `first` and `last = first + rest`, where `fuel = rest`. -/
  fun_aux (a : List Nat) (first : Nat) : Nat → List Nat
    | 0 => a
    | 1 => (a.set first (a.getD (first + 1) 0)).set (first + 1) (a.getD first 0)
    | rest + 2 =>
      fun_aux ((a.set first (a.getD (first + rest + 2) 0)).set (first + rest + 2) (a.getD first 0))
        (first + 1) rest

/-- multiindex.hh:280-284 `reverse`. -/
def MI.reverse (m : MI) : MI :=
  if 1 < m.capacity then { m with cells := reverseRange m.cells 0 m.sz } else m

/-- multiindex.hh:313-318 `operator==`. -/
def MI.eq (a b : MI) : Bool := a.sz == b.sz && a.cells.take a.sz == b.cells.take a.sz

/-- multiindex.hh:165-174  constructor from a multi-index of another capacity `n`; the loop runs up to
`min(n,_n)` and goes through `operator[]` of both, with (`checked`) or without the checks of
ReservedVector. -/
def MI.convert (checked : Bool) (n : Nat) (rv : MI) : Option MI :=
  if rv.sz ≤ n then
    ((MI.empty n).resize rv.sz).bind fun m =>
      (List.range (min n rv.capacity)).foldlM
        (fun (m : MI) i =>
          if checked && !(decide (i < rv.sz)) then none
          else some { m with cells := m.cells.set i (rv.cells.getD i 0) }) m
  else none

/-- multiindex.hh:45-148  a view: a reference to a multi-index and an own size. -/
structure View where
  mi : MI
  size : Nat
deriving Repr, DecidableEq

/-- multiindex.hh:299-307 `view()`, `view(size)` (the latter unchecked). -/
def MI.view (m : MI) : View := ⟨m, m.sz⟩
/-- multiindex.hh:303-307  `view(size)`, which is unchecked. -/
def MI.viewOf (m : MI) (s : Nat) : View := ⟨m, s⟩

/-- multiindex.hh:98-108 `operator[]`. -/
def View.get (v : View) (i : Nat) : Option Nat := if i < v.size then v.mi.get i else none

/-- multiindex.hh:88-96 `back`. -/
def View.back (v : View) : Option Nat := if 0 < v.size then v.mi.get (v.size - 1) else none

/-- multiindex.hh:78-86 `front`. -/
def View.front (v : View) : Option Nat := v.mi.front

/-- multiindex.hh:110-114 `resize`. -/
def View.resize (v : View) (s : Nat) : Option View := if s ≤ v.mi.sz then some { v with size := s } else none

/-- multiindex.hh:116-120 `back_popped`. -/
def View.backPopped (v : View) : Option View := if 0 < v.size then some { v with size := v.size - 1 } else none

/-- multiindex.hh:153-157  copy of a view. -/
def View.toMI (v : View) : Option MI := v.mi.resize v.size

end Verif.MIndex
