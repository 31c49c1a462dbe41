import Verif.Proofs.BlockLocal
import Mathlib.Algebra.Field.Rat
import Mathlib.Tactic.NormNum
/-
C101-C105: the wrappers for the block diagonal, the block off-diagonal and the point diagonal of a local operator.
-/
namespace Verif
open GridAssembler LocalOp LocalOp.Spec BlockOp BlockOp.Spec

section
variable {K : Type} [Field K]

theorem assembled_indexFree {ap : Bool} {cells : List Cell} {lop : Lop K} {x : GDof → K} (h : Assembled ap cells lop x) :
    IndexFree ap cells lop x :=
  h.elim (fun h => indexFree_of_symmetric h.2) fun h => h.2.2

theorem assembled_cases {ap : Bool} {cells : List Cell} {lop : Lop K} {x : GDof → K} (h : Assembled ap cells lop x) :
    (lop.twoSided = false ∧ SideSymmetric ap cells lop x) ∨ (lop.twoSided = true ∧ InsideOnly ap cells lop x) :=
  h.imp id fun h => ⟨h.1, h.2.1⟩

/-- **C101 (block diagonal).** Assembling the wrapped operator gives the diagonal blocks of the matrix of the operator itself
and nothing else, for every grid and every linearisation point, although the wrapped operator is called from both sides of
each face even if the operator itself is not. The operator must not have post-skeleton terms. -/
theorem C101_block_diagonal_partial (ap : Bool) (cells : List Cell) (hg : ProperGrid ap cells) (hs : SharedFaces ap cells)
    (lop : Lop K) (x : GDof → K) (hpost : lop.doAlphaVolumePostSkeleton = false) (h : Assembled ap cells lop x)
    (c : Cell) (hc : c ∈ cells) (k : Nat) (a b : LDof) :
    matrix ap cells (blockDiagonal lop) x (c.id, a) (k, b) =
      if c.id = k then matrix ap cells lop x (c.id, a) (k, b) else 0 :=
  entry_diagonal ap cells hg hs lop x hpost (assembled_indexFree h) (assembled_cases h) c hc k a b

/-- **C102 (block off-diagonal).** Assembling the operator wrapped for the off-diagonal blocks gives the matrix of the operator
without its diagonal blocks, if the operator itself is called once for each face. -/
theorem C102_block_off_diagonal_partial (ap : Bool) (cells : List Cell) (hg : ProperGrid ap cells)
    (hs : SharedFaces ap cells) (lop : Lop K) (x : GDof → K) (htwo : lop.twoSided = false)
    (hsym : SideSymmetric ap cells lop x) (c : Cell) (hc : c ∈ cells) (k : Nat) (a b : LDof) :
    matrix ap cells (blockOffDiagonal lop) x (c.id, a) (k, b) =
      if c.id = k then 0 else matrix ap cells lop x (c.id, a) (k, b) :=
  entry_offDiagonal ap cells hg hs lop x htwo hsym c hc k a b

/-- **C102 (splitting).** The matrices of the two wrapped operators add up to that of the operator. -/
theorem C102_splitting_partial (ap : Bool) (cells : List Cell) (hg : ProperGrid ap cells) (hs : SharedFaces ap cells)
    (lop : Lop K) (x : GDof → K) (hpost : lop.doAlphaVolumePostSkeleton = false) (htwo : lop.twoSided = false)
    (hsym : SideSymmetric ap cells lop x) (c : Cell) (hc : c ∈ cells) (k : Nat) (a b : LDof) :
    matrix ap cells (blockDiagonal lop) x (c.id, a) (k, b) + matrix ap cells (blockOffDiagonal lop) x (c.id, a) (k, b) =
      matrix ap cells lop x (c.id, a) (k, b) := by
  rw [C101_block_diagonal_partial ap cells hg hs lop x hpost (Or.inl ⟨htwo, hsym⟩) c hc,
    C102_block_off_diagonal_partial ap cells hg hs lop x htwo hsym c hc]
  split <;> simp

/-- **C103 (matrix-free application).** If the application methods of a local operator multiply by its Jacobians, the grid
operator's matrix-free application multiplies by the matrix that it would assemble, and does not throw, for every grid,
every linearisation point and every vector. -/
theorem C103_matrix_free_application (ap : Bool) (cells : List Cell) (hg : ProperGrid ap cells) (lop : Lop K)
    (dofs : Nat → List LDof) (hpost : lop.doAlphaVolumePostSkeleton = false) (hA : ApplyIsJacobian lop dofs)
    (x z : GDof → K) :
    ∃ l, applyCalls ap cells lop x z = some l ∧
      ∀ g, total l g = dot (allDofs cells dofs) (matrix ap cells lop x g) z :=
  applyCalls_total ap cells hg lop dofs hpost hA x z

/-- **C103 (application of the block diagonal).** The matrix-free application of the wrapped operator multiplies, in each cell,
the cell's part of the vector by the cell's diagonal block. -/
theorem C103_block_diagonal_application (ap : Bool) (cells : List Cell) (hg : ProperGrid ap cells)
    (hs : SharedFaces ap cells) (lop : Lop K) (dofs : Nat → List LDof) (hpost : lop.doAlphaVolumePostSkeleton = false)
    (hA : ApplyIsJacobian lop dofs) (x z : GDof → K) (h : Assembled ap cells lop x) :
    ∃ l, applyCalls ap cells (blockDiagonal lop) x z = some l ∧ ∀ c ∈ cells, ∀ a,
      total l (c.id, a) =
        dot (dofs c.id) (fun b => matrix ap cells lop x (c.id, a) (c.id, b)) (fun b => z (c.id, b)) := by
  obtain ⟨l, hl, ht⟩ := applyCalls_total ap cells hg (blockDiagonal lop) dofs rfl (apply_diagonal lop dofs hA) x z
  refine ⟨l, hl, fun c hc a => ?_⟩
  rw [ht, ← dot_allDofs_only cells hg.nodup dofs c.id (List.mem_map_of_mem hc)
    (fun b => matrix ap cells lop x (c.id, a) (c.id, b)) z]
  refine dot_congr _ _ ?_
  rintro ⟨k, b⟩ _
  rw [C101_block_diagonal_partial ap cells hg hs lop x hpost h c hc]
  by_cases hk : c.id = k
  · subst hk; simp
  · simp [hk]

/-- **C103 (application of the off-diagonal blocks).** The matrix-free application of the operator wrapped for the
off-diagonal blocks multiplies by the matrix without its diagonal blocks (this time whether the operator is called from one
side or from both). -/
theorem C103_block_off_diagonal_application (ap : Bool) (cells : List Cell) (hg : ProperGrid ap cells)
    (hs : SharedFaces ap cells) (lop : Lop K) (dofs : Nat → List LDof) (hA : ApplyIsJacobian lop dofs) (x z : GDof → K)
    (h : Assembled ap cells lop x) :
    ∃ l, applyCalls ap cells (blockOffDiagonal lop) x z = some l ∧ ∀ c ∈ cells, ∀ a,
      total l (c.id, a) =
        dot (allDofs cells dofs) (fun g => if c.id = g.1 then 0 else matrix ap cells lop x (c.id, a) g) z := by
  obtain ⟨l, hl, ht⟩ := applyCalls_total ap cells hg (offS lop) dofs rfl (apply_offS lop dofs hA) x z
  refine ⟨l, hl, fun c hc a => ?_⟩
  rw [ht]
  refine dot_congr _ _ ?_
  rintro ⟨k, b⟩ _
  exact entry_offS ap cells hg hs lop x (assembled_indexFree h) (assembled_cases h) c hc k a b

/-- **C104 (point diagonal).** The residual of the operator wrapped for the point diagonal holds the diagonal of the matrix of
the operator, if no Jacobian couples two components of a system. -/
theorem C104_point_diagonal_partial (ap : Bool) (cells : List Cell) (hg : ProperGrid ap cells) (hs : SharedFaces ap cells)
    (lop : Lop K) (x : GDof → K) (hpost : lop.doAlphaVolumePostSkeleton = false) (h : Assembled ap cells lop x)
    (hC : NoCoupling lop) (c : Cell) (hc : c ∈ cells) (a : LDof) :
    total (residualCalls ap cells (pointDiagonal lop) x) (c.id, a) = matrix ap cells lop x (c.id, a) (c.id, a) := by
  rw [residual_pointDiagonal ap cells lop hC x, C101_block_diagonal_partial ap cells hg hs lop x hpost h c hc, if_pos rfl]

/-- **C105 (one block).** Assembling the diagonal block of a single cell gives the block of the matrix, if the diagonal part of
the skeleton term does not depend on the other cell and the cell has no periodic boundary. -/
theorem C105_local_block_partial (ap : Bool) (cells : List Cell) (hg : ProperGrid ap cells) (hs : SharedFaces ap cells)
    (lop : Lop K) (x : GDof → K) (hT : PlainTerms lop) (h : Assembled ap cells lop x) (hL : LocalDiagonal lop)
    (c : Cell) (hc : c ∈ cells) (hP : NotPeriodic c) (a b : LDof) :
    total (assembleLocalDiagonalBlock ap (blockDiagonal lop) c fun a => x (c.id, a)) (a, b) =
      matrix ap cells lop x (c.id, a) (c.id, b) :=
  local_diagonal ap cells hg hs lop x hT (assembled_indexFree h) (assembled_cases h) hL c hc hP a b

/-- **C105 (application of one block).** Under the same conditions the matrix-free application of the diagonal block of a
single cell multiplies by the block of the matrix, and does not throw. -/
theorem C105_local_application_partial (ap : Bool) (cells : List Cell) (hg : ProperGrid ap cells)
    (hs : SharedFaces ap cells) (lop : Lop K) (x : GDof → K) (hT : PlainTerms lop) (h : Assembled ap cells lop x)
    (hL : LocalDiagonal lop) (dofs : Nat → List LDof) (hA : ApplyIsJacobian lop dofs)
    (c : Cell) (hc : c ∈ cells) (hP : NotPeriodic c) (z : LDof → K) :
    ∃ l, applyLocalDiagonalBlock ap (blockDiagonal lop) c (fun a => x (c.id, a)) z = some l ∧
      ∀ a, total l a = dot (dofs c.id) (fun b => matrix ap cells lop x (c.id, a) (c.id, b)) z := by
  obtain ⟨l, hl, ht⟩ := local_apply ap (blockDiagonal lop) dofs (apply_diagonal lop dofs hA) c (fun a => x (c.id, a)) z
  refine ⟨l, hl, fun a => ?_⟩
  rw [ht]
  exact dot_congr _ _ fun b _ => C105_local_block_partial ap cells hg hs lop x hT h hL c hc hP a b

/-- **C105 (point diagonal of one block).** Under the same conditions, and if no Jacobian couples two components of a system,
the point diagonal of a single cell is the diagonal of the matrix. -/
theorem C105_local_point_diagonal_partial (ap : Bool) (cells : List Cell) (hg : ProperGrid ap cells)
    (hs : SharedFaces ap cells) (lop : Lop K) (x : GDof → K) (hT : PlainTerms lop) (h : Assembled ap cells lop x)
    (hL : LocalDiagonal lop) (hC : NoCoupling lop) (c : Cell) (hc : c ∈ cells) (hP : NotPeriodic c) (a : LDof) :
    total (assembleLocalPointDiagonal ap (pointDiagonal lop) c fun a => x (c.id, a)) a =
      matrix ap cells lop x (c.id, a) (c.id, a) := by
  rw [local_pointDiagonal ap lop hC]
  exact C105_local_block_partial ap cells hg hs lop x hT h hL c hc hP a a

end

/-! ### A concrete case: two cells with a common face -/
namespace BlockExample

def grid : List Cell :=
  [⟨0, [⟨0, false, true, 0, false, false⟩, ⟨1, true, false, 1, true, true⟩]⟩,
   ⟨1, [⟨1, true, false, 0, true, true⟩, ⟨2, false, true, 0, false, false⟩]⟩]

/-- The same two cells with periodic boundaries. -/
def ring : List Cell :=
  [⟨0, [⟨0, true, true, 1, true, true⟩, ⟨1, true, false, 1, true, true⟩]⟩,
   ⟨1, [⟨1, true, false, 0, true, true⟩, ⟨0, true, true, 0, true, true⟩]⟩]

/-- One degree of freedom for each cell. -/
def dofs (_ : Nat) : List LDof := [(0, 0)]

/-- A diffusion-reaction operator, called from one side or from both. -/
def lop (two : Bool) : Lop ℚ where
  isLinear := true
  twoSided := two
  doAlphaVolume := true
  doAlphaSkeleton := true
  doAlphaBoundary := true
  doAlphaVolumePostSkeleton := false
  jacobianVolume c _ := [(((0, 0), (0, 0)), c + 2)]
  jacobianSkeleton _ _ _ _ _ :=
    [((.ss, (0, 0), (0, 0)), 1), ((.sn, (0, 0), (0, 0)), -1)] ++
    (if two then [] else [((.ns, (0, 0), (0, 0)), -1), ((.nn, (0, 0), (0, 0)), 1)])
  jacobianBoundary _ _ _ := [(((0, 0), (0, 0)), 3)]
  jacobianVolumePostSkeleton _ _ := []
  applyVolume c _ z := some [((0, 0), (c + 2) * z (0, 0))]
  applySkeleton _ _ _ zs _ _ zn := some
    ([((.s, (0, 0)), zs (0, 0) - zn (0, 0))] ++ (if two then [] else [((.n, (0, 0)), zn (0, 0) - zs (0, 0))]))
  applyBoundary _ _ _ z := some [((0, 0), 3 * z (0, 0))]

theorem proper : ProperGrid true grid :=
  ⟨by decide, by decide, by decide⟩

theorem shared : SharedFaces true grid := by
  intro c hc
  revert c
  decide

theorem symmetric (x : GDof → ℚ) : SideSymmetric true grid (lop false) x := by
  intro c f o _ i j blk a b
  cases blk <;> simp [faceBlock, lop, total_cons, total_nil, swap]

theorem insideOnly (x : GDof → ℚ) : InsideOnly true grid (lop true) x := by
  intro c f o _ i a b
  simp [faceBlock, lop, total_cons, total_nil]

theorem assembled (two : Bool) (x : GDof → ℚ) : Assembled true grid (lop two) x := by
  cases two
  · exact Or.inl ⟨rfl, symmetric x⟩
  · exact Or.inr ⟨rfl, insideOnly x, fun c f o _ i blk a b => rfl⟩

theorem apply (two : Bool) : ApplyIsJacobian (lop two) dofs where
  volume c x z := ⟨_, rfl, fun a => by
    simp only [lop, total_cons, total_nil, dot, dofs, List.map_cons, List.map_nil, List.sum_cons, List.sum_nil,
      Prod.mk.injEq, and_true]
    split <;> simp⟩
  skeleton ig c xs zs o xn zn := ⟨_, rfl, fun a => by
      cases two <;>
      simp only [lop, total_cons, total_nil, dot, dofs, List.map_cons, List.map_nil, List.sum_cons, List.sum_nil,
        Prod.mk.injEq, and_true, true_and, reduceCtorEq, false_and, if_false, if_true, List.cons_append, List.nil_append,
        Bool.false_eq_true] <;> split <;> ring, fun a => by
      cases two <;>
      simp only [lop, total_cons, total_nil, dot, dofs, List.map_cons, List.map_nil, List.sum_cons, List.sum_nil,
        Prod.mk.injEq, and_true, true_and, reduceCtorEq, false_and, if_false, if_true, List.cons_append, List.nil_append,
        Bool.false_eq_true]
      · split <;> ring
      · ring⟩
  boundary ig c x z := ⟨_, rfl, fun a => by
    simp only [lop, total_cons, total_nil, dot, dofs, List.map_cons, List.map_nil, List.sum_cons, List.sum_nil,
      Prod.mk.injEq, and_true]
    split <;> simp⟩

theorem noCoupling (two : Bool) : NoCoupling (lop two) := by
  refine ⟨?_, ?_, ?_⟩ <;> intros <;> cases two <;> simp_all [lop]
  · rename_i h
    rcases h with rfl | rfl | rfl | rfl <;> rfl
  · rename_i h
    rcases h with rfl | rfl <;> rfl

theorem plain (two : Bool) : PlainTerms (lop two) := ⟨rfl, rfl, rfl, rfl⟩

theorem localDiagonal (two : Bool) : LocalDiagonal (lop two) := fun _ _ _ _ _ _ _ _ _ => rfl

theorem notPeriodic : ∀ c ∈ grid, NotPeriodic c := by
  intro c hc
  unfold NotPeriodic
  revert c
  decide

/-- A vector. -/
def vec (g : GDof) : ℚ := if g.1 = 0 then 5 else 7

end BlockExample

section Examples
open BlockExample

/-- The conditions of C101-C105 hold for the diffusion-reaction operator on two cells. -/
example (two : Bool) (x : GDof → ℚ) : ProperGrid true grid ∧ SharedFaces true grid ∧ Assembled true grid (lop two) x ∧
    ApplyIsJacobian (lop two) dofs ∧ NoCoupling (lop two) ∧ PlainTerms (lop two) ∧ LocalDiagonal (lop two) ∧
    (∀ c ∈ grid, NotPeriodic c) :=
  ⟨proper, shared, assembled two x, apply two, noCoupling two, plain two, localDiagonal two, notPeriodic⟩

/-- Its matrix has diagonal entries 6, 7 and off-diagonal entries -1, however it is assembled. -/
example : ∀ two, matrix true grid (lop two) vec (0, 0, 0) (0, 0, 0) = 6 ∧
    matrix true grid (lop two) vec (0, 0, 0) (1, 0, 0) = -1 ∧ matrix true grid (lop two) vec (1, 0, 0) (1, 0, 0) = 7 ∧
    matrix true grid (blockDiagonal (lop two)) vec (0, 0, 0) (0, 0, 0) = 6 ∧
    matrix true grid (blockDiagonal (lop two)) vec (0, 0, 0) (1, 0, 0) = 0 ∧
    (applyCalls true grid (lop two) vec vec).map (fun l => total l (0, 0, 0)) = some (6 * 5 - 7) := by
  decide +kernel

end Examples

/-! ### What is not true of the code -/

/-- **C101 (false in general).** The wrapper drops post-skeleton terms, so that the wrapped operator does not give the
diagonal blocks of an operator that has them. -/
theorem C101_post_skeleton_false : ∃ (lop : Lop ℚ) (x : GDof → ℚ), Assembled true [⟨0, []⟩] lop x ∧
    lop.doAlphaVolumePostSkeleton = true ∧
    matrix true [⟨0, []⟩] (blockDiagonal lop) x (0, 0, 0) (0, 0, 0) ≠ matrix true [⟨0, []⟩] lop x (0, 0, 0) (0, 0, 0) := by
  refine ⟨{ BlockExample.lop false with
    doAlphaVolumePostSkeleton := true, jacobianVolumePostSkeleton := fun _ _ => [(((0, 0), (0, 0)), 4)] },
    BlockExample.vec, Or.inl ⟨rfl, ?_⟩, rfl, by decide +kernel⟩
  rintro c f o ⟨c', h1, _, i, h2, _⟩
  simp only [List.mem_singleton] at h1
  subst h1
  simp at h2

/-- **C102 (false in general).** For an operator that is called from both sides and contributes to the rows of the inside cell,
the matrix of the operator wrapped for the off-diagonal blocks is not the off-diagonal part of the matrix: the wrapper keeps
the block whose rows belong to the other cell. (Its matrix-free application is right, see C103.) -/
theorem C102_two_sided_false : ∃ (cells : List Cell) (lop : Lop ℚ) (x : GDof → ℚ), ProperGrid true cells ∧
    SharedFaces true cells ∧ lop.twoSided = true ∧ Assembled true cells lop x ∧
    matrix true cells (blockOffDiagonal lop) x (0, 0, 0) (1, 0, 0) = 0 ∧ matrix true cells lop x (0, 0, 0) (1, 0, 0) = -1 :=
  ⟨BlockExample.grid, BlockExample.lop true, BlockExample.vec, BlockExample.proper, BlockExample.shared, rfl,
    BlockExample.assembled true _, by decide +kernel, by decide +kernel⟩

/-- **C104 (false in general).** For a system the wrapper adds entries that couple different components to the diagonal: it
compares the indices in the component spaces and does not look at the spaces. -/
theorem C104_systems_false : ∃ (lop : Lop ℚ) (x : GDof → ℚ), Assembled true [⟨0, []⟩] lop x ∧
    lop.doAlphaVolumePostSkeleton = false ∧
    matrix true [⟨0, []⟩] lop x (0, 0, 0) (0, 0, 0) = 2 ∧ matrix true [⟨0, []⟩] lop x (0, 0, 0) (0, 1, 0) = 9 ∧
    total (residualCalls true [⟨0, []⟩] (pointDiagonal lop) x) (0, 0, 0) = 11 := by
  refine ⟨{ BlockExample.lop false with
    jacobianVolume := fun _ _ => [(((0, 0), (0, 0)), 2), (((0, 0), (1, 0)), 9), (((1, 0), (1, 0)), 3)] },
    BlockExample.vec, Or.inl ⟨rfl, ?_⟩, rfl, by decide +kernel, by decide +kernel, by decide +kernel⟩
  rintro c f o ⟨c', h1, _, i, h2, _⟩
  simp only [List.mem_singleton] at h1
  subst h1
  simp at h2

/-- **C105 (false for nonlinear skeleton terms).** The functions for one block hand the coefficients of the cell to the
skeleton term in place of those of the neighbour, so that the block of an operator whose diagonal part depends on the
neighbour's coefficients is wrong. -/
theorem C105_neighbour_coefficients_false : ∃ (cells : List Cell) (lop : Lop ℚ) (x : GDof → ℚ) (c : Cell),
    ProperGrid true cells ∧ SharedFaces true cells ∧ c ∈ cells ∧ PlainTerms lop ∧ Assembled true cells lop x ∧
    NotPeriodic c ∧
    total (assembleLocalDiagonalBlock true (blockDiagonal lop) c fun a => x (c.id, a)) ((0, 0), (0, 0)) ≠
      matrix true cells lop x (c.id, 0, 0) (c.id, 0, 0) := by
  refine ⟨BlockExample.grid, { BlockExample.lop true with
    isLinear := false
    jacobianSkeleton := fun _ _ _ _ xn => [((.ss, (0, 0), (0, 0)), xn (0, 0))] }, BlockExample.vec,
    ⟨0, [⟨0, false, true, 0, false, false⟩, ⟨1, true, false, 1, true, true⟩]⟩,
    BlockExample.proper, BlockExample.shared, by decide, ⟨rfl, rfl, rfl, rfl⟩, Or.inr ⟨rfl, ?_, fun _ _ _ _ _ _ _ _ => rfl⟩,
    BlockExample.notPeriodic _ (by decide), by decide +kernel⟩
  intro c f o _ i a b
  simp [faceBlock, total_cons, total_nil]

/-- **C105 (false at periodic boundaries).** The functions for one block leave out faces at periodic boundaries, which the
assembler treats like all other faces between two cells. -/
theorem C105_periodic_false : ∃ (cells : List Cell) (lop : Lop ℚ) (x : GDof → ℚ) (c : Cell),
    ProperGrid true cells ∧ SharedFaces true cells ∧ c ∈ cells ∧ PlainTerms lop ∧ Assembled true cells lop x ∧
    LocalDiagonal lop ∧
    total (assembleLocalDiagonalBlock true (blockDiagonal lop) c fun a => x (c.id, a)) ((0, 0), (0, 0)) ≠
      matrix true cells lop x (c.id, 0, 0) (c.id, 0, 0) := by
  refine ⟨BlockExample.ring, BlockExample.lop false, BlockExample.vec,
    ⟨0, [⟨0, true, true, 1, true, true⟩, ⟨1, true, false, 1, true, true⟩]⟩,
    ⟨by decide, by decide, by decide⟩, ?_, by decide, BlockExample.plain false, Or.inl ⟨rfl, ?_⟩,
    BlockExample.localDiagonal false, by decide +kernel⟩
  · intro c hc
    revert c
    decide
  · intro c f o _ i j blk a b
    cases blk <;> simp [faceBlock, BlockExample.lop, total_cons, total_nil, swap]

end Verif
