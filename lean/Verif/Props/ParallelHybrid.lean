import Verif.Proofs.ParallelHybrid
import Mathlib.Algebra.Field.Rat
/-
C182: the parallel preconditioner with smoothing in the discontinuous space and a correction in a conforming subspace.
-/
set_option linter.unusedSectionVars false
namespace Verif

open AmgBackends
open Verif.ParallelHelper Verif.ParallelHelper.Spec Verif.ParallelSolvers Verif.ParallelSolvers.Spec

/-- C182: for a consistent `x` and a defect that is right at the degrees of freedom that are not constrained, all processes get the same result: `x` plus the result of
`n1` corrections with the sum of the local smoothers, one correction `G C Gᵀ` in the subspace and `n2` smoothing corrections for
the global matrix. The local matrices have complete rows at unconstrained degrees of freedom; every degree of freedom of the discontinuous space is unconstrained on
exactly one process, its owner. The multigrid cycle returns a consistent vector for a defect that is zero at constrained and copied entries. -/
theorem C182_parallel {K : Type} [CommRing K] {L Lc : Layout} {ents cents : List Nat} {ndof cndof : Nat → Nat} {ib cib : Bool}
    (hv : Valid L ents ndof ib) (hfull : Full L ndof) (hvc : Valid Lc cents cndof cib) (hfullc : Full Lc cndof) (hprocs : Lc.procs = L.procs)
    {msgs cmsgs : List Message} (hm : Exchange L all all msgs) (hmc : Exchange Lc all all cmsgs)
    {cc ccg copies ranks : Nat → List Nat} {A P : Nat → Nat → Nat → K} {allCells : Finset Nat} {cells : Nat → Finset Nat}
    {M : Nat → Nat → Nat → Nat → Nat → K} (hA : Assembled L cc A allCells cells M) {G : Nat → Nat → Nat → Nat → K} (hP : Embedding L Lc P G)
    (hone : ∀ e ∈ ents, ∀ k, k < ndof e → ∃ p, p < L.procs ∧ (∃ i, pos L all p e k = some i ∧ i ∉ cc p) ∧
      ∀ q, q < L.procs → q ≠ p → ∀ i, pos L all q e k = some i → i ∈ cc q)
    (howned : ∀ p, p < L.procs → ∀ i, i < L.size p → i ∉ cc p → owned p (ranks p) i = true)
    (B : Nat → Nat → Nat → K) (dgprec : Nat → (Nat → K) → (Nat → K) → Nat → K) (hB : ∀ p d, dgprec p 0 d = mv (L.size p) (B p) d)
    (cgprec : Vecs K → Vecs K → Vecs K) (C : (Nat → Nat → K) → Nat → Nat → K)
    (hC : ∀ cgd D, DefectOn Lc (fun p => ccg p ++ copies p) cgd D → ConsistentOn Lc all (cgprec 0 cgd) (C D))
    (n1 n2 : Int) {x b : Vecs K} {X R : Nat → Nat → K} (hx : ConsistentOn L all x X)
    (hb : ∀ p, p < L.procs → ∀ c ∈ L.copies p, ∀ k i : Nat, c.dofs[k]? = some i → i ∉ cc p → b p i = R c.ent k) :
    let Aop := globalMv ents ndof (globalMatrix allCells M)
    let S := globalMv ents ndof (totalMatrix L all fun p i j => if j ∈ cc p then 0 else B p i j)
    let T := fun D => globalMv cents cndof G (C fun e' k' => sumDofs ents ndof fun e k => G e k e' k' * D e k)
    ∃ y, parHybridApply L Lc msgs cmsgs cc ccg copies ranks A P dgprec cgprec n1 n2 x b = some y ∧
      ConsistentOn L all y fun e k => X e k +
        (globalCorrection Aop S R)^[n2.toNat] (globalCorrection Aop T R ((globalCorrection Aop S R)^[n1.toNat] fun _ _ => 0)) e k := by
  intro Aop S T
  have z : ∀ e k, globalMv ents ndof (globalMatrix allCells M) (fun _ _ => 0) e k = 0 := fun e k => by
    unfold globalMv sumDofs; simp
  obtain ⟨s1, e1, f1, g1⟩ := parSmooth_eq hv hfull hm hA B dgprec hB X R n1.toNat (fun _ _ => 0)
    (x, fun p => zeroConstrained (cc p) (b p))
    (fun p hp c hc hf k i hk => by
      change x p i = X c.ent k + 0
      rw [hx p hp c hc hf k i hk, add_zero])
    (fun p hp c hc k i hk => by
      simp only [zeroConstrained_eq, z, sub_zero]
      by_cases hi : i ∈ cc p
      · rw [if_pos hi, if_pos hi]
      · rw [if_neg hi, if_neg hi, hb p hp c hc k i hk hi])
  obtain ⟨s2, e2, f2, g2⟩ := parCoarseStep_eq hv hvc hfullc hmc hprocs hA hP hone howned cgprec C hC X R _ s1 f1 g1
  obtain ⟨s3, e3, f3, _⟩ := parSmooth_eq hv hfull hm hA B dgprec hB X R n2.toNat _ s2 f2 g2
  refine ⟨s3.1, ?_, f3⟩
  unfold parHybridApply
  simp only [e1, e2, e3, Option.bind_eq_bind, Option.bind_some]

/-! ### Example: two intervals with linear functions, one on each process, with the neighbour as overlap -/

def hybCells : Layout where
  procs := 2
  copies := fun p => if p = 0 then [⟨0, true, [0, 1]⟩, ⟨1, false, [2, 3]⟩] else if p = 1 then [⟨1, true, [0, 1]⟩, ⟨0, false, [2, 3]⟩] else []
  size := fun _ => 4
def hybVertices : Layout where
  procs := 2
  copies := fun p => if p = 0 then [⟨0, true, [0]⟩, ⟨1, true, [1]⟩, ⟨2, false, [2]⟩] else
    if p = 1 then [⟨2, true, [0]⟩, ⟨1, true, [1]⟩, ⟨0, false, [2]⟩] else []
  size := fun _ => 3

theorem hybCellsValid : Valid hybCells [0, 1] (fun _ => 2) false where
  ranks := by decide
  positions := by decide
  once := by decide
  distinct := by decide
  known := by decide
  somewhere := by
    intro e he
    simp only [List.mem_cons, List.not_mem_nil, or_false] at he
    rcases he with rfl | rfl
    · exact ⟨0, by decide, ⟨0, true, [0, 1]⟩, by decide, rfl, rfl⟩
    · exact ⟨1, by decide, ⟨1, true, [0, 1]⟩, by decide, rfl, rfl⟩
  dofs := by decide
  restricted := by intro h; cases h
theorem hybVerticesValid : Valid hybVertices [0, 1, 2] (fun _ => 1) false where
  ranks := by decide
  positions := by decide
  once := by decide
  distinct := by decide
  known := by decide
  somewhere := by
    intro e he
    simp only [List.mem_cons, List.not_mem_nil, or_false] at he
    rcases he with rfl | rfl | rfl
    · exact ⟨0, by decide, ⟨0, true, [0]⟩, by decide, rfl, rfl⟩
    · exact ⟨0, by decide, ⟨1, true, [1]⟩, by decide, rfl, rfl⟩
    · exact ⟨1, by decide, ⟨2, true, [0]⟩, by decide, rfl, rfl⟩
  dofs := by decide
  restricted := by intro h; cases h
theorem hybCellsFull : Full hybCells (fun _ => 2) ∧ Full hybVertices (fun _ => 1) := by unfold Full; decide
theorem hybCellsAll : Exchange hybCells all all (allMessages hybCells all all) ∧
    Exchange hybVertices all all (allMessages hybVertices all all) := ⟨exchange_all _ _ _ (by decide), exchange_all _ _ _ (by decide)⟩

/-- The degrees of freedom of the neighbour are constrained. -/
def hybCellsCC : Nat → List Nat := fun _ => [2, 3]
/-- Cell and vertex at a position. -/
def cellAt (p i : Nat) : Nat := if i < 2 then p else 1 - p
def vertexAt (p i : Nat) : Nat := if p = 0 then i else 2 - i
/-- A global matrix, and the embedding of the continuous functions. -/
def hybCellsM (e k e' k' : Nat) : Int := if e < 2 ∧ k < 2 ∧ e' < 2 ∧ k' < 2 then (if e = e' ∧ k = k' then 4 else -1) else 0
def hybCellsG (e k e' k' : Nat) : Int := if e' = e + k ∧ e < 2 ∧ k < 2 ∧ k' = 0 then 1 else 0
def hybCellsA (p i j : Nat) : Int := hybCellsM (cellAt p i) (i % 2) (cellAt p j) (j % 2)
def hybCellsP (p i j : Nat) : Int := hybCellsG (cellAt p i) (i % 2) (vertexAt p j) 0

theorem hybCellsPos {p e k i : Nat} (hp : p < 2) (h : pos hybCells all p e k = some i) : e = cellAt p i ∧ k = i % 2 ∧ i < 4 := by
  obtain ⟨c, hc, _, rfl, hk⟩ := of_pos h
  have key : ∀ p < 2, ∀ c ∈ hybCells.copies p, c.dofs.length = 2 ∧ ∀ k < 2, ∀ i ∈ c.dofs[k]?, c.ent = cellAt p i ∧ k = i % 2 ∧ i < 4 := by decide
  obtain ⟨h1, h2⟩ := key p hp c hc
  have hlt : k < c.dofs.length := (List.getElem?_eq_some_iff.1 hk).1
  exact h2 k (h1 ▸ hlt) i hk
theorem hybVerticesPos {p e k i : Nat} (hp : p < 2) (h : pos hybVertices all p e k = some i) : e = vertexAt p i ∧ k = 0 := by
  obtain ⟨c, hc, _, rfl, hk⟩ := of_pos h
  have key : ∀ p < 2, ∀ c ∈ hybVertices.copies p, c.dofs.length = 1 ∧ ∀ k < 1, ∀ i ∈ c.dofs[k]?, c.ent = vertexAt p i ∧ k = 0 := by decide
  obtain ⟨h1, h2⟩ := key p hp c hc
  have hlt : k < c.dofs.length := (List.getElem?_eq_some_iff.1 hk).1
  exact h2 k (h1 ▸ hlt) i hk

theorem hybCellsAssembled : Assembled hybCells hybCellsCC hybCellsA {0} (fun _ => {0}) (fun _ => hybCellsM) where
  sub := fun _ _ => Finset.Subset.refl _
  entry := by
    intro p hp e k i e' k' j h1 _ h2
    obtain ⟨rfl, rfl, _⟩ := hybCellsPos hp h1
    obtain ⟨rfl, rfl, _⟩ := hybCellsPos hp h2
    rw [Finset.sum_singleton]; rfl
  complete := by
    intro p hp e k i h1 h2 t ht hn
    exact absurd ht hn
  closed := by
    intro p hp t _ e k e' k' hne
    have h : e' < 2 ∧ k' < 2 := by
      unfold hybCellsM at hne
      by_contra hh
      apply hne
      rw [if_neg]
      rintro ⟨_, _, a, b⟩
      exact hh ⟨a, b⟩
    have key : ∀ p < 2, ∀ e' < 2, ∀ k' < 2, (pos hybCells all p e' k').isSome = true := by decide
    exact Option.isSome_iff_exists.1 (key p hp e' h.1 k' h.2)

theorem hybCellsEmbedding : Embedding hybCells hybVertices hybCellsP hybCellsG where
  entry := by
    intro p hp e k i e' k' j h1 h2
    obtain ⟨rfl, rfl, _⟩ := hybCellsPos hp h1
    obtain ⟨rfl, rfl⟩ := hybVerticesPos hp h2
    rfl
  closed := by
    intro p hp e k i e' k' _ hne
    have h : e' < 3 ∧ k' = 0 := by
      unfold hybCellsG at hne
      by_contra hh
      apply hne
      rw [if_neg]
      rintro ⟨a, b, c, d⟩
      exact hh ⟨by omega, d⟩
    obtain ⟨h1, rfl⟩ := h
    have key : ∀ p < 2, ∀ e' < 3, (pos hybVertices all p e' 0).isSome = true := by decide
    exact Option.isSome_iff_exists.1 (key p hp e' h1)

/-- Every degree of freedom is unconstrained on its owner only. -/
example : (∀ e ∈ [0, 1], ∀ k, k < 2 → ∃ p, p < hybCells.procs ∧ (∃ i, pos hybCells all p e k = some i ∧ i ∉ hybCellsCC p) ∧
      ∀ q, q < hybCells.procs → q ≠ p → ∀ i, pos hybCells all q e k = some i → i ∈ hybCellsCC q) ∧
    (∀ p, p < hybCells.procs → ∀ i, i < hybCells.size p → i ∉ hybCellsCC p →
      owned p ((fun p => if p = 0 then [0, 0, 1, 1] else [1, 1, 0, 0]) p) i = true) := by
  constructor
  · intro e he k hk
    refine ⟨e, ?_, ⟨k, ?_⟩, ?_⟩
    · revert e; decide
    · revert e k; decide
    · have key : ∀ e ∈ [0, 1], ∀ k < 2, ∀ q < 2, q ≠ e → ∀ i ∈ pos hybCells all q e k, i ∈ hybCellsCC q := by decide
      intro q hq hne i hi
      exact key e he k hk q hq hne i hi
  · decide

/-- A run of the preconditioner of the example with the local matrix 1 as smoother and a correction in the subspace that doubles the defect at
owned vertices: both processes have the same values. -/
example : ((parHybridApply hybCells hybVertices (allMessages hybCells all all) (allMessages hybVertices all all) hybCellsCC (fun _ => [])
      (fun p => if p = 0 then [2] else [1, 2]) (fun p => if p = 0 then [0, 0, 1, 1] else [1, 1, 0, 0]) hybCellsA hybCellsP (fun _ _ d => d)
      (fun _ d p j => 2 * (if vertexAt p j = 2 then d 1 0 else d 0 (vertexAt p j))) 1 1 (fun _ _ => 0) (fun p i => cellAt p i + i % 2)).map
        fun y => (List.range 2).map fun p => (List.range 4).map (y p)) =
    some [[-28, 1, 1, 30], [1, 30, -28, 1]] := by decide +kernel

end Verif
