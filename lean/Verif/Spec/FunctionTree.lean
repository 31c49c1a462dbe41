import Verif.Model.FunctionTree
/-
What the time and the element of functions in trees should be.
-/
namespace Verif.FunctionTree.Spec

variable {T E : Type}

/-- The leaf object that a path of a tree leads to. -/
def IsLeaf (s : State T E) (j : Nat) (path : List Nat) (i : Nat) : Prop :=
  ∃ tree, s.trees[j]? = some tree ∧ tree.at? path = some (.leaf i)

/-- The time of leaf object `i` is stored in `c`. -/
def StoredIn (s : State T E) (i c : Nat) : Prop := ∃ o, s.objects[i]? = some o ∧ o.cell = c

/-- An operation sets the time stored in `c` to `t`: it is `setTime` of a tree, or a part of one, with a leaf whose time this is, or `setTime` of
the parameter object. -/
def SetsTime (s : State T E) (op : Op T E) (c : Nat) (t : T) : Prop :=
  match op with
  | .setTime j path t' => t' = t ∧ ∃ q i, IsLeaf s j (path ++ q) i ∧ StoredIn s i c
  | .setParameter c' t' => c' = c ∧ t' = t
  | _ => False

/-- An operation binds the leaf at `q` of the local tree `l` to `e`. -/
def Binds (op : Op T E) (l : Nat) (q : List Nat) (e : E) : Prop :=
  match op with
  | .bind l' path e' => l' = l ∧ e' = e ∧ ∃ r, q = path ++ r
  | _ => False

end Verif.FunctionTree.Spec
