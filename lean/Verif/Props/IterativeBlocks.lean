import Verif.Proofs.IterativeBlocks
import Verif.Props.BlockPrecond
/-
C222: the block Jacobi preconditioner with iteratively inverted blocks.
-/
namespace Verif
open GridAssembler LocalOp LocalOp.Spec BlockOp BlockOp.Spec BlockPrec BlockPrec.Spec

section
variable {K : Type} [Field K]

/-- **C222 (the local system).** The application of the preconditioner in a cell hands to the iterative solver the operator that multiplies by the diagonal block of the
matrix of this cell, scaled by the weight of the result vector, the initial value zero and the cell's part of the vector. The solution is added to the
result and the number of iterations is appended to the statistics. The operator never throws. (Limits as in C105.) -/
theorem C222_local_system_partial (ap : Bool) (cells : List Cell) (hg : ProperGrid ap cells) (hs : SharedFaces ap cells) (lop : Lop K)
    (x : GDof → K) (hT : PlainTerms lop) (h : Assembled ap cells lop x) (hL : LocalDiagonal lop) (dofs : Nat → List LDof)
    (hA : ApplyIsJacobian lop dofs) (c : Cell) (hc : c ∈ cells) (hP : NotPeriodic c) (solver : LocalSolver K) (options : BlockOptions K)
    (invDiagonal : List K) (weight : K) (z y : LDof → K) (statistics : List Nat) :
    ∃ system : LocalSystem K,
      iterativeApply ap (blockDiagonal lop) c solver options false invDiagonal weight (handed lop fun a => x (c.id, a)) z y statistics =
        (solver system (fun _ => 0) z).map (fun r => (fun a => y a + r.1 a, statistics ++ [r.2])) ∧
      (∀ v, system.apply v =
        some fun a => weight * dot (dofs c.id) (fun b => matrix ap cells lop x (c.id, a) (c.id, b)) v) ∧
      (∀ alpha v w, system.applyScaleAdd alpha v w =
        some fun a => w a + alpha * (weight * dot (dofs c.id) (fun b => matrix ap cells lop x (c.id, a) (c.id, b)) v)) ∧
      system.precondition = pointJacobi options.precondition options.weight invDiagonal := by
  have hop : ∀ v, blockApply ap (blockDiagonal lop) c weight (handed lop fun a => x (c.id, a)) v =
      some fun a => weight * dot (dofs c.id) (fun b => matrix ap cells lop x (c.id, a) (c.id, b)) v := by
    intro v
    obtain ⟨l, hl, ht⟩ := C105_local_application_partial ap cells hg hs lop x hT h hL dofs hA c hc hP v
    have hh : handed lop (fun a => x (c.id, a)) = handed (blockDiagonal lop) (fun a => x (c.id, a)) := rfl
    rw [hh, blockApply_eq, hl]
    simp only [Option.map_some]
    congr 1
    funext a
    rw [weighted_total, ht]
  refine ⟨⟨_, _, _⟩, rfl, hop, fun alpha v w => ?_, rfl⟩
  unfold blockApplyScaleAdd
  dsimp only
  rw [hop]
  rfl

/-- **C222 (the local preconditioner).** After the first setup the preconditioner of the local solver divides by the diagonal entries of the matrix, scaled by the
weight of the result vector, and multiplies by the relaxation factor; if it is switched off it does nothing. (Limits as in C105 and C110.) -/
theorem C222_local_preconditioner_partial (ap : Bool) (cells : List Cell) (hg : ProperGrid ap cells) (hs : SharedFaces ap cells) (lop : Lop K)
    (x : GDof → K) (hT : PlainTerms lop) (h : Assembled ap cells lop x) (hL : LocalDiagonal lop) (hC : NoCoupling lop)
    (c : Cell) (hc : c ∈ cells) (hP : NotPeriodic c) (dofs : List LDof) (localIndex : LDof → Nat) (hS : StoredAs dofs localIndex)
    (hin : ∀ q ∈ assembleLocalPointDiagonal ap (pointDiagonal lop) c fun a => x (c.id, a), q.1 ∈ dofs) (weight relax : K)
    (d : List K) (hd : d.length = dofs.length) :
    (∀ (i : Nat) (a : LDof) (v : K), dofs[i]? = some a → d[i]? = some v →
      (pointJacobi true relax (iterativeAlpha ap (pointDiagonal lop) c dofs.length localIndex weight (fun a => x (c.id, a)) []) d)[i]? =
        some (relax * v / (weight * matrix ap cells lop x (c.id, a) (c.id, a)))) ∧
    (pointJacobi true relax (iterativeAlpha ap (pointDiagonal lop) c dofs.length localIndex weight (fun a => x (c.id, a)) []) d).length = dofs.length ∧
    ∀ inv, pointJacobi false relax inv d = d := by
  obtain ⟨h1, h2⟩ := iterativeSetup_value [] dofs.length (Or.inl rfl) _ (diagonalView_lt dofs localIndex hS weight _ hin)
  refine ⟨fun i a v ha hv => ?_, ?_, fun _ => rfl⟩
  · have hi : i < dofs.length := (List.getElem?_eq_some_iff.1 ha).1
    have h3 := h2 i hi
    unfold pointJacobi iterativeAlpha
    rw [if_pos rfl, List.getElem?_zipWith, hv]
    rw [List.getD_eq_getElem?_getD, List.getElem?_eq_getElem (by rw [h1]; exact hi)] at h3
    rw [List.getElem?_eq_getElem (by rw [h1]; exact hi)]
    simp only [Option.getD_some] at h3 ⊢
    rw [h3, total_diagonalView dofs localIndex hS weight _ hin i a ha,
      C105_local_point_diagonal_partial ap cells hg hs lop x hT h hL hC c hc hP a]
    simp only [List.getD_nil, zero_add]
    congr 1
    ring
  · unfold pointJacobi iterativeAlpha
    rw [if_pos rfl, List.length_zipWith, h1, hd, Nat.min_self]

/-- **C222 (exact solver).** With a solver that returns solutions, and the weight 1, the preconditioner inverts the diagonal blocks, so that it can be used in the block SOR
preconditioner (C107): the conditions there on the solver for the blocks are met. -/
theorem C222_inverts_blocks_partial (ap : Bool) (cells : List Cell) (hg : ProperGrid ap cells) (hs : SharedFaces ap cells) (lop : Lop K)
    (x : GDof → K) (hT : PlainTerms lop) (h : Assembled ap cells lop x) (hL : LocalDiagonal lop) (dofs : Nat → List LDof)
    (hA : ApplyIsJacobian lop dofs) (hP : ∀ c ∈ cells, NotPeriodic c) (solver : LocalSolver K) (hsolver : ∀ c ∈ cells, SolvesExactly solver (dofs c.id))
    (options : BlockOptions K) (inv : Nat → List K) (statistics : Nat → List Nat) (cell : Nat → Cell) (hcell : ∀ c ∈ cells, cell c.id = c)
    (solve : Nat → (LDof → K) → LDof → K)
    (hsolve : ∀ c ∈ cells, ∀ r, ∃ st, iterativeApply ap (blockDiagonal lop) (cell c.id) solver options false (inv c.id) 1
      (handed lop fun a => x (c.id, a)) r (fun _ => 0) (statistics c.id) = some (solve c.id r, st)) :
    InvertsBlocks cells dofs (matrix ap cells lop x) solve := by
  intro c hc r a ha
  obtain ⟨st, hst⟩ := hsolve c hc r
  rw [hcell c hc] at hst
  obtain ⟨system, h1, h2, _⟩ := C222_local_system_partial ap cells hg hs lop x hT h hL dofs hA c hc (hP c hc) solver options (inv c.id) 1 r
    (fun _ => 0) (statistics c.id)
  rw [h1] at hst
  cases hres : solver system (fun _ => 0) r with
  | none => rw [hres] at hst; cases hst
  | some yn =>
    rw [hres] at hst
    simp only [Option.map_some, Option.some.injEq, Prod.mk.injEq, zero_add] at hst
    obtain ⟨hy, _⟩ := hst
    obtain ⟨r', hr', hz⟩ := hsolver c hc system _ r yn.1 yn.2 hres
    rw [h2] at hr'
    cases hr'
    have := hz a ha
    dsimp only at this
    rw [one_mul] at this
    rw [← this, ← hy]

end

/-! ### Concrete cases -/
section Examples
open BlockExample

/-- A solver for systems with one unknown: one step with the matrix that the operator tells, and a check of the result. -/
def exSolver : LocalSolver ℚ := fun s y₀ z =>
  match s.apply (fun _ => 1), s.applyScaleAdd (-1) y₀ z with
  | some m, some d =>
    let y := fun a => y₀ a + d a / m (0, 0)
    if (s.apply y).map (fun r => r (0, 0)) = some (z (0, 0)) then some (y, 1) else none
  | _, _ => none

/-- It returns solutions. -/
theorem exSolver_exact (c : Nat) : SolvesExactly exSolver (dofs c) := by
  intro system y₀ z y n h
  unfold exSolver at h
  split at h
  · dsimp only at h
    split at h
    · next m d _ _ h3 =>
      simp only [Option.some.injEq, Prod.mk.injEq] at h
      rw [h.1] at h3
      obtain ⟨r, hr, hz⟩ := Option.map_eq_some_iff.1 h3
      refine ⟨r, hr, fun a ha => ?_⟩
      have : a = (0, 0) := by simpa [dofs] using ha
      rw [this]
      exact hz
    · cases h
  · cases h

/-- The conditions of C222 hold for the diffusion-reaction operator on two cells. -/
example : StoredAs (dofs 0) Prod.snd ∧ (∀ c ∈ grid, ∀ q ∈ assembleLocalPointDiagonal true (pointDiagonal (lop false)) c fun a => vec (c.id, a), q.1 ∈ dofs c.id) := by
  refine ⟨by unfold StoredAs; decide, ?_⟩
  decide +kernel

/-- The preconditioner on the two cells, with the weight 1/2: the blocks are 6 and 7, what was in the result is kept, and the number of iterations is recorded. -/
example : grid.map (fun c => (iterativeApply true (blockDiagonal (lop false)) c exSolver ⟨true, 1⟩ false
      (iterativeAlpha true (pointDiagonal (lop false)) c 1 Prod.snd (1 / 2) (fun a => vec (c.id, a)) []) (1 / 2) (handed (lop false) fun a => vec (c.id, a))
      (fun _ => 42) (fun _ => 100) [7]).map fun r => (r.1 (0, 0), r.2)) = [some (114, [7, 1]), some (112, [7, 1])] := by
  decide +kernel

/-- The stored inverses are those of 6 and 7 times the weight. -/
example : grid.map (fun c => pointJacobi true 2 (iterativeAlpha true (pointDiagonal (lop false)) c 1 Prod.snd (1 / 2) (fun a => vec (c.id, a)) []) [21]) = [[14], [12]] := by
  decide +kernel

end Examples

end Verif
