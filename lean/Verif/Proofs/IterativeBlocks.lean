import Verif.Spec.IterativeBlocks
import Verif.Proofs.BlockPrecond
/-
Helpers for the block Jacobi preconditioner with iteratively inverted blocks.
-/
namespace Verif.BlockPrec

open GridAssembler LocalOp LocalOp.Spec BlockOp BlockOp.Spec Spec

variable {K : Type} [Field K]

theorem weighted_total (weight : K) (calls : Calls LDof K) (a : LDof) : weighted weight calls a = weight * total calls a := by
  have key : ∀ (calls : Calls LDof K) (y : LDof → K),
      calls.foldl (fun y q => upd y q.1 (y q.1 + weight * q.2)) y a = y a + weight * total calls a := by
    intro calls
    induction calls with
    | nil => intro y; simp [total_nil]
    | cons q calls ih =>
      intro y
      rw [List.foldl_cons, ih, total_cons]
      unfold upd
      by_cases h : a = q.1
      · subst h
        simp only [if_true]
        ring
      · rw [if_neg h, if_neg (fun h' => h h'.symm)]
        ring
  unfold weighted
  rw [key]
  ring

theorem applyLocal_linear (ap : Bool) (lop : Lop K) (c : Cell) (h : lop.isLinear = true) (x x' z : LDof → K) :
    applyLocalDiagonalBlock ap lop c x z = applyLocalDiagonalBlock ap lop c x' z := by
  unfold applyLocalDiagonalBlock linPoint
  simp only [h, if_true]

theorem blockApply_eq (ap : Bool) (block : Lop K) (c : Cell) (weight : K) (x z : LDof → K) :
    blockApply ap block c weight (handed block x) z = (applyLocalDiagonalBlock ap block c x z).map (weighted weight) := by
  unfold blockApply handed
  cases h : block.isLinear with
  | true => simp only [if_true]; rw [applyLocal_linear ap block c h z x]
  | false => rfl

theorem total_diagonalView (dofs : List LDof) (localIndex : LDof → Nat) (hS : StoredAs dofs localIndex) (weight : K) (calls : Calls LDof K)
    (hin : ∀ q ∈ calls, q.1 ∈ dofs) (i : Nat) (a : LDof) (ha : dofs[i]? = some a) :
    total (diagonalView localIndex weight calls) i = weight * total calls a := by
  have idx : ∀ (j : Nat) (b : LDof), dofs[j]? = some b → localIndex b = j := by
    intro j b hb
    have h1 : (dofs.map localIndex)[j]? = some (localIndex b) := by rw [List.getElem?_map, hb]; rfl
    rw [hS] at h1
    obtain ⟨h2, h3⟩ := List.getElem?_eq_some_iff.1 h1
    rw [List.getElem_range] at h3
    exact h3.symm
  unfold diagonalView
  induction calls with
  | nil => simp [total_nil]
  | cons q calls ih =>
    rw [List.map_cons, total_cons, total_cons, ih fun q hq => hin q (List.mem_cons_of_mem _ hq)]
    obtain ⟨j, hj⟩ := List.getElem?_of_mem (hin q (List.mem_cons_self ..))
    have hq := idx j q.1 hj
    have hai := idx i a ha
    by_cases h : q.1 = a
    · rw [if_pos h, if_pos (by dsimp only; rw [h, hai])]
      ring
    · rw [if_neg h, if_neg]
      · ring
      · dsimp only
        intro he
        rw [hq] at he
        subst he
        rw [ha] at hj
        cases hj
        exact h rfl

theorem diagonalView_lt (dofs : List LDof) (localIndex : LDof → Nat) (hS : StoredAs dofs localIndex) (weight : K) (calls : Calls LDof K)
    (hin : ∀ q ∈ calls, q.1 ∈ dofs) : ∀ q ∈ diagonalView localIndex weight calls, q.1 < dofs.length := by
  intro q hq
  obtain ⟨q', hq', rfl⟩ := List.mem_map.1 hq
  have : localIndex q'.1 ∈ dofs.map localIndex := List.mem_map_of_mem (hin q' hq')
  rw [hS] at this
  exact List.mem_range.1 this

theorem dot_smul_row (dofs : List LDof) (weight : K) (row z : LDof → K) : weight * dot dofs row z = dot dofs (fun b => weight * row b) z := by
  unfold dot
  rw [← List.sum_map_mul_left]
  congr 1
  exact List.map_congr_left fun b _ => by ring

end Verif.BlockPrec
