import Verif.Model.DataHandle
/-
Specification of the exchange of DOF data between processes.
-/
namespace Verif.DataHandle.Spec

variable {E : Type}

/-- Combine the received values with the present ones, position by position; `i` is the local position of the first value. -/
def combineAt (comb : Nat → E → E → E) : Nat → List E → List E → List E
  | i, d :: ds, x :: xs => comb i d x :: combineAt comb (i + 1) ds xs
  | _, ds, [] => ds
  | _, [], _ => []

/-- Cut a list into consecutive blocks of the given sizes. -/
def blocks : List Nat → List E → List (List E)
  | [], _ => []
  | k :: ks, l => l.take k :: blocks ks (l.drop k)

/-- What the receiver shall hold: every block in which something was received is combined with the received block of the same leaf; blocks
without received data stay as they are; received blocks for which the receiver has no DOFs are ignored. -/
def combineBlocks (comb : Nat → E → E → E) : Nat → List (List E) → List (List E) → List E
  | i, r :: rs, l :: ls => combineAt comb i l r ++ combineBlocks comb (i + l.length) rs ls
  | _, _, ls => ls.flatten

/-- The local view shows as many DOFs as the ordering reports for the entity. -/
def WellFormed (s : Side E) : Prop := s.contains = true ∧ s.dofs.length = s.leafSizesSetIndex.sum

/-- Both indices of the entity lead to the same number of DOFs: always so for entity sets of all partitions (there the two indices are the
same) and for spaces with a fixed number of DOFs per geometry type. -/
def SizesAgree (s : Side E) : Prop := s.leafSizesGridIndex.sum = s.leafSizesSetIndex.sum

/-- Each leaf has the same number of DOFs on both sides, or none on one of them. -/
def Compatible : List Nat → List Nat → Prop
  | r :: rs, l :: ls => (r = 0 ∨ l = 0 ∨ r = l) ∧ Compatible rs ls
  | [], [] => True
  | _, _ => False

/-- The layouts of an entity on the two sides allow an exchange. -/
def Exchangeable (sendLeafSizes : Bool) (snd rcv : Side E) : Prop :=
  if sendLeafSizes then
    (rcv.inPartition = true ∧ WellFormed rcv ∧ Compatible snd.leafSizesSetIndex rcv.leafSizesSetIndex) ∨
    (rcv.inPartition = false ∧ rcv.dofs = [] ∧ snd.leafSizesSetIndex.length = rcv.leafSizesSetIndex.length)
  else
    (rcv.inPartition = true ∧ snd.dofs.length = rcv.dofs.length) ∨ (rcv.inPartition = false ∧ rcv.dofs = [] ∧ snd.dofs = [])

/-- What the receiver shall hold on an entity after the exchange. -/
def received (sendLeafSizes : Bool) (comb : Nat → E → E → E) (snd rcv : Side E) : List E :=
  if rcv.inPartition then
    if sendLeafSizes then
      combineBlocks comb 0 (blocks snd.leafSizesSetIndex snd.dofs) (blocks rcv.leafSizesSetIndex rcv.dofs)
    else combineAt comb 0 rcv.dofs snd.dofs
  else []

end Verif.DataHandle.Spec
