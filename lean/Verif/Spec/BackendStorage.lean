import Verif.Model.BackendStorage

/-!
# Specification of vectors as values

Each vector is a variable which holds a list of numbers or nothing.  There are
no containers and no addresses here.
-/

set_option linter.unusedSectionVars false

namespace Verif.BackendStorage

variable {K : Type} [Ring K]

/-- The operations which do not bring containers into play explicitly. -/
def Private : Event K → Prop
  | .container _ | .constructExternal _ _ | .attach _ _ | .attachContainer _ _ => False
  | _ => True

/-- The content of a variable. -/
def content (vars : List (Option (List K))) (i : Nat) : Option (List K) := (vars[i]?).join

/-- The result of an operation on the content of one variable. -/
def onOne (f : List K → List K) (vars : List (Option (List K))) (i : Nat) :
    Option (List (Option (List K))) :=
  match content vars i with
  | some x => some (vars.set i (some (f x)))
  | none => none

/-- The result of an entrywise operation on the contents of two variables: the
second one has to be at least as long as the first one. -/
def onTwo (f : K → K → K) (vars : List (Option (List K))) (i j : Nat) :
    Option (List (Option (List K))) :=
  match content vars i, content vars j with
  | some x, some y => if x.length ≤ y.length then some (vars.set i (some (List.zipWith f x y))) else none
  | _, _ => none

/-- What the operations mean for variables. -/
def meaning (vars : List (Option (List K))) : Event K → Option (List (Option (List K)))
  | .construct n => some (vars ++ [some (List.replicate n 0)])
  | .constructUnattached => some (vars ++ [none])
  | .constructValue n e => some (vars ++ [some (List.replicate n e)])
  | .copy _ i =>
    match content vars i with
    | some x => some (vars ++ [some x])
    | none => none
  | .move i => if i < vars.length then some (vars.set i none ++ [content vars i]) else none
  | .assign i j =>
    if i < vars.length then
      if i = j then some vars
      else match content vars j with
        | some y => some (vars.set i (some y))
        | none => none
    else none
  | .detach i => if i < vars.length then some (vars.set i none) else none
  | .fill i e => onOne (fun x => x.map fun _ => e) vars i
  | .scale i e => onOne (fun x => x.map fun t => e * t) vars i
  | .shift i e => onOne (fun x => x.map fun t => e + t) vars i
  | .add i j => onTwo (fun s t => s + t) vars i j
  | .sub i j => onTwo (fun s t => s - t) vars i j
  | .axpy i a j => onTwo (fun s t => s + a * t) vars i j
  | .write i k e =>
    match content vars i with
    | some x => if k < x.length then some (vars.set i (some (x.set k e))) else none
    | none => none
  | .container _ | .constructExternal _ _ | .attach _ _ | .attachContainer _ _ => none

/-- The meaning of a sequence of operations. -/
def meanings (vars : List (Option (List K))) : List (Event K) → Option (List (Option (List K)))
  | [] => some vars
  | e :: es =>
    match meaning vars e with
    | some vars => meanings vars es
    | none => none

/-- The contents of all vectors. -/
def values (st : State K) : List (Option (List K)) := (List.range st.vecs.length).map st.value

/-- The vector whose entries an operation changes in place. -/
def inPlace (st : State K) : Event K → Option Nat
  | .fill i _ | .scale i _ | .shift i _ | .add i _ | .sub i _ | .axpy i _ _ | .write i _ _ => some i
  | .assign i _ => if (st.address i).isSome then some i else none
  | _ => none

/-- The container whose entries an operation changes. -/
def touched (st : State K) (e : Event K) : Option Nat :=
  match e with
  | .constructExternal _ a => some a
  | e => (inPlace st e).bind st.address

/-- The vectors whose pointer an operation changes. -/
def rebinds (st : State K) : Event K → List Nat
  | .move i | .attach i _ | .attachContainer i _ | .detach i => [i]
  | .assign i _ => if (st.address i).isSome then [] else [i]
  | _ => []

/-- The operations of a sequence do not change the pointers of two vectors. -/
def KeepsPointers (i j : Nat) : State K → List (Event K) → Prop
  | _, [] => True
  | st, e :: es => i ∉ rebinds st e ∧ j ∉ rebinds st e ∧
      ∀ st', step st e = some st' → KeepsPointers i j st' es

/-- The matrix a wrapper of the simple backend stands for: its sizes and its
entries. -/
def Dense.IsMatrix (a : Dense K) (n m : Nat) (f : Nat → Nat → K) : Prop :=
  a.rows = n ∧ a.cols = m ∧ ∀ i < n, ∀ j < m, a.entry i j = some (f i j)

end Verif.BackendStorage
