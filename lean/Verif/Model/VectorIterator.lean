/-
Model of the flat iterator over nested vectors.

Source: /repo/dune/pdelab/backend/istl/vectoriterator.hh.

Simplifications: addresses of entries are index paths into the nested vector. An iterator at level `l` is the position in its block, and its
end is the size of that block; the block at level `l + 1` is the one the iterator at level `l` points to, since the iterators of a level are
always set from the block of the level above (lines 276-277, 238-239 with 281 and 341).
-/
namespace Verif.VectorIterator

/-- Nested vectors by the tags of backend/istl/tags.hh: `field_vector_1`, `field_vector_n` or `dynamic_vector`, and `block_vector`. In the code
all blocks of a vector have the same type; here they may differ. Used for `start`, backend/istl/vectoriterator.hh:231-288. -/
inductive Vec (α : Type) where
  | one (x : α)
  | leaf (xs : List α)
  | block (bs : List (Vec α))

/-- The members `_iterators` (lines 353), by level, `_current` (line 352) and `_at_end` (line 351). -/
structure St where
  it : Nat → Nat
  current : Option (List Nat)
  atEnd : Bool

/-- Set the iterator of a level. Used for `start`, backend/istl/vectoriterator.hh:231-288. -/
def St.setIt (st : St) (l i : Nat) : St := { st with it := fun k => if k = l then i else st.it k }

/-- The positions of the iterators of the levels below `l`. Used for `start`, backend/istl/vectoriterator.hh:231-288. -/
def St.pre (st : St) (l : Nat) : List Nat := (List.range l).map st.it

variable {α : Type}

mutual
/-- `start`, lines 231-288, for a block of any tag at level `l`. -/
def start : Vec α → Nat → St → Bool × St
  | .one _, l, st => (true, { st with current := some (st.pre l ++ [0]) })
  | .leaf xs, l, st =>
    let st := st.setIt l 0
    if xs.length = 0 then (false, st) else (true, { st with current := some (st.pre (l + 1)) })
  | .block bs, l, st => startFrom bs l (st.setIt l 0)
/-- The loop in lines 279-285 and 339-345; the list holds the blocks from the iterator on. -/
def startFrom : List (Vec α) → Nat → St → Bool × St
  | [], _, st => (false, st)
  | b :: bs, l, st =>
    match start b (l + 1) st with
    | (true, st) => (true, st)
    | (false, st) => startFrom bs l (st.setIt l (st.it l + 1))
end

mutual
/-- `advance`, lines 291-348. `none`: an iterator is dereferenced behind the end. -/
def advance : Vec α → Nat → St → Option (Bool × St)
  | .one _, _, st => some (false, st)
  | .leaf xs, l, st =>
    let st := st.setIt l (st.it l + 1)
    if st.it l = xs.length then some (false, st) else some (true, { st with current := some (st.pre (l + 1)) })
  | .block bs, l, st => advanceAt bs (st.it l) l st
/-- Line 334 and following; the second argument is the distance from the beginning of the list to the block the iterator points to.
Used for `advance`, backend/istl/vectoriterator.hh:291-348. -/
def advanceAt : List (Vec α) → Nat → Nat → St → Option (Bool × St)
  | [], _, _, _ => none
  | b :: bs, 0, l, st =>
    match advance b (l + 1) st with
    | none => none
    | some (true, st) => some (true, st)
    | some (false, st) => some (startFrom bs l (st.setIt l (st.it l + 1)))
  | _ :: bs, k + 1, l, st => advanceAt bs k l st
end

/-- The constructor, lines 125-132. -/
def construct (v : Vec α) (atEnd : Bool) : St :=
  let st : St := ⟨fun _ => 0, none, atEnd⟩
  if atEnd then st
  else
    match start v 0 st with
    | (true, st) => st
    | (false, st) => { st with atEnd := true }

/-- `increment`, lines 224-229; `none` also for a failed assertion. -/
def increment (v : Vec α) (st : St) : Option St :=
  if st.atEnd then none
  else
    match advance v 0 st with
    | none => none
    | some (true, st) => some st
    | some (false, st) => some { st with atEnd := true }

/-- `operator==`, lines 195-205. -/
def equals (a b : St) : Bool := if !a.atEnd then (if b.atEnd then false else a.current = b.current) else b.atEnd

/-- `for (auto it = begin(); it != end(); ++it) visit(*it)`, with at most `fuel` rounds; `none` if it does not come to an end or dereferences
an invalid iterator. Source: the iterators of backend/istl/vectoriterator.hh:109-230. -/
def traverse (v : Vec α) : Nat → St → Option (List (List Nat))
  | 0, _ => none
  | fuel + 1, st =>
    if equals st (construct v true) then some []
    else
      match st.current, increment v st with
      | some p, some st' =>
        match traverse v fuel st' with
        | none => none
        | some ps => some (p :: ps)
      | _, _ => none

end Verif.VectorIterator
